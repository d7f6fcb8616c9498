{"id": "C01", "title": "with-blocks restore the portal context", "statement": "Whatever sequence of nested or consecutive `with portal:` blocks a program runs, including blocks left by an exception, creation of further portals and re-entering the portal that is already current, after the outermost block ends the set and order of entered portals is exactly what it was before the block began.", "quantifier": "all programs built from with-blocks, try/except, raise and portal construction, of any nesting depth, from every reachable context", "why_tests_cant": "unbounded nesting depth and every raise point", "anchors": ["pythagoras/_010_basic_portals/foundation.py:BasicPortal.__enter__", "pythagoras/_010_basic_portals/foundation.py:BasicPortal.__exit__", "pythagoras/_020_logging_portals/logging_portals.py:LoggingPortal.__exit__"]}
{"id": "C02", "title": "the current portal is the innermost with-block", "statement": "Inside a `with p:` block (outside any deeper block) the current portal is p; the portal chosen for an operation is the explicitly given one if any, otherwise the innermost entered one, otherwise the most recently created one, otherwise the default local portal.", "quantifier": "all histories of portal creation, entering and leaving", "why_tests_cant": "every history", "anchors": ["pythagoras/_010_basic_portals/foundation.py:BasicPortal._most_recently_entered_portal", "pythagoras/_010_basic_portals/foundation.py:BasicPortal.get_best_portal_to_use"]}
{"id": "C03", "title": "leaving a portal that is not innermost is refused", "statement": "Calling exit on a portal which is not the innermost entered one raises an error and leaves the context of entered portals unchanged.", "quantifier": "all contexts and all portals", "why_tests_cant": "every context", "anchors": ["pythagoras/_010_basic_portals/foundation.py:BasicPortal.__exit__"]}
{"id": "C04", "title": "exit-all empties the context", "statement": "Calling the exit-all operation terminates and leaves no portal entered, however many portals are entered and however many times each was re-entered.", "quantifier": "all reachable contexts", "why_tests_cant": "termination for arbitrary counters", "anchors": ["pythagoras/_010_basic_portals/foundation.py:BasicPortal.__exit_all__"]}
{"id": "C05", "title": "lists of entered / noncurrent portals are exact", "statement": "The list of entered portals contains every portal with an unfinished with-block exactly once, ordered from innermost to outermost by innermost occurrence; the list of noncurrent portals contains exactly the known portals other than the current one, in creation order.", "quantifier": "all reachable contexts", "why_tests_cant": "every interleaving of re-entries of the same portals", "anchors": ["pythagoras/_010_basic_portals/foundation.py:BasicPortal._entered_portals", "pythagoras/_010_basic_portals/foundation.py:BasicPortal._noncurrent_portals"]}
{"id": "C06", "title": "re-entry counting is invisible", "statement": "The observable portal context (current portal, whether an exit is legal, entered list) after any sequence of enter/exit calls is that of a plain stack of enter events; the counters used to merge repeated entries never change observable behaviour.", "quantifier": "all sequences of enter and exit calls", "why_tests_cant": "refinement over all call sequences", "anchors": ["pythagoras/_010_basic_portals/foundation.py:BasicPortal.entered_portals_counters_stack"]}
{"id": "C07", "title": "first value wins", "statement": "After any sequence of assignments to a first-entry dictionary, the value stored under a key is the value of the first assignment to that key since the start (or the pre-existing one), and keys never assigned are untouched.", "quantifier": "all sequences of assignments, all contents, all probabilities and random draws", "why_tests_cant": "every assignment history", "anchors": ["pythagoras/_800_persidict_extensions/first_entry_dict.py:FirstEntryDict.__setitem__"]}
{"id": "C08", "title": "consistency checks are sound and complete at p=1", "statement": "With check probability 1 an assignment to an existing key raises if and only if the new value differs from the stored one; with probability 0/None it never raises; in general a check is made exactly if the key has a value, checking is on and the random draw is below the probability; in no case does a failed check alter the stored data; the counters of checks and of successful checks count exactly these.", "quantifier": "all dictionaries, keys, values, random draws", "why_tests_cant": "every history", "anchors": ["pythagoras/_800_persidict_extensions/first_entry_dict.py:FirstEntryDict.__setitem__"]}
{"id": "C09", "title": "concurrent writers of one value agree", "statement": "If all concurrent writers of a key write the same value then under every interleaving of their individual file operations, including transient I/O failures, any value ever readable under that key is that value, and no writer fails for another reason than the storage. For any values: once a key has a value and no writer is between its check and its write, the value stays. (With different values the first value can be overwritten: shown as a counterexample.)", "quantifier": "all numbers of writers, all interleavings of their atomic steps", "why_tests_cant": "schedules cannot be enumerated by tests", "anchors": ["pythagoras/_800_persidict_extensions/first_entry_dict.py:FirstEntryDict.__setitem__"]}
{"id": "C10", "title": "base-32 conversion is a faithful number encoding", "statement": "Converting a non-negative integer to base 32 and back gives the same integer, distinct positive integers give distinct strings, the text has no leading zero digit and uses only the documented alphabet; conversion from a hexadecimal digest preserves the number; decoding ignores case.", "quantifier": "all natural numbers / all hexadecimal strings", "why_tests_cant": "infinite domain", "anchors": ["pythagoras/_820_strings_signatures_converters/base_16_32_convertors.py:convert_int_to_base32", "pythagoras/_820_strings_signatures_converters/base_16_32_convertors.py:convert_base_32_to_int", "pythagoras/_820_strings_signatures_converters/base_16_32_convertors.py:convert_base16_to_base32"]}
{"id": "C11", "title": "signatures are short safe strings and keep the leading 110 bits", "statement": "A hash or random signature has at most 22 characters, all in 0-9a-v; two 256-bit digests whose base-32 forms have the same length give the same signature exactly when their leading 22 base-32 digits agree.", "quantifier": "all digests", "why_tests_cant": "infinite domain", "anchors": ["pythagoras/_820_strings_signatures_converters/hash_signatures.py:get_hash_signature", "pythagoras/_820_strings_signatures_converters/random_signatures.py:get_random_signature"]}
{"id": "C12", "title": "an address exposes type name and size", "statement": "The address of a value is (lower-cased class name, descriptor+signature); values of equal class name, size/shape and digest get equal addresses, and from an address the class name, whether it was sized/shaped, the size and the signature can be recovered unambiguously, so values that differ in lower-cased class name or in length never share an address.", "quantifier": "all values, all digests", "why_tests_cant": "infinite domain of values", "anchors": ["pythagoras/_030_data_portals/hash_addresses.py:HashAddr._build_prefix", "pythagoras/_030_data_portals/hash_addresses.py:HashAddr._build_hash_signature"]}
{"id": "C13", "title": "shape descriptors are injective for non-empty shapes", "statement": "Two arrays with different non-empty shapes get different address descriptors; the empty (0-dimensional) shape yields a mangled but still distinct descriptor.", "quantifier": "all shapes", "why_tests_cant": "infinite domain", "anchors": ["pythagoras/_030_data_portals/hash_addresses.py:HashAddr._build_hash_signature"]}
{"id": "C14", "title": "store then get", "statement": "After creating a value address for x in a portal, getting that address - in the same session, from a copy of the address, from an unpickled copy under that portal, or rebuilt from its strings - returns x, whatever other values are stored meanwhile, provided no two stored values share an address.", "quantifier": "all values, all interleaved storage operations, all portals", "why_tests_cant": "every history", "anchors": ["pythagoras/_030_data_portals/value_addresses.py:ValueAddr.__init__", "pythagoras/_030_data_portals/value_addresses.py:ValueAddr.get"]}
{"id": "C15", "title": "content integrity", "statement": "Whatever operations run, the value kept in any portal under an address always is a value whose own address is that address; hence a get never returns a value with a different address.", "quantifier": "all operation histories over any number of portals", "why_tests_cant": "every history", "anchors": ["pythagoras/_030_data_portals/value_addresses.py:ValueAddr.__init__", "pythagoras/_030_data_portals/value_addresses.py:ValueAddr.get", "pythagoras/_030_data_portals/value_addresses.py:ValueAddr.ready"]}
{"id": "C16", "title": "stores only grow", "statement": "No operation of the value/result address API removes or changes a stored value or a stored execution result in any portal.", "quantifier": "all operation histories", "why_tests_cant": "every history", "anchors": ["pythagoras/_030_data_portals/value_addresses.py", "pythagoras/_800_persidict_extensions/first_entry_dict.py", "pythagoras/_070_pure_functions/pure_core_classes.py"]}
{"id": "C17", "title": "cross-portal lookup copies the value", "statement": "If the address's own portal lacks the value and some known portal other than the current one holds it, get returns the value and the address's own portal holds it afterwards; ready returns True with the same effect.", "quantifier": "all portal configurations", "why_tests_cant": "every configuration", "anchors": ["pythagoras/_030_data_portals/value_addresses.py:ValueAddr.get_from_noncurrent_portals", "pythagoras/_030_data_portals/value_addresses.py:ValueAddr._ready_in_noncurrent_portals"]}
{"id": "C18", "title": "a value held by any known portal can be retrieved", "statement": "If any known portal holds a value, get on its address (bound to any portal) returns it. (False: values held only by the current portal are missed when the address is bound to another portal.)", "quantifier": "all portal configurations", "why_tests_cant": "every configuration", "anchors": ["pythagoras/_030_data_portals/value_addresses.py:ValueAddr.get_from_noncurrent_portals", "pythagoras/_010_basic_portals/foundation.py:BasicPortal._noncurrent_portals"]}
{"id": "C19", "title": "ready implies get succeeds", "statement": "Whenever ready returns True for an address, get returns a value without raising. (False for an address converted from an unchecked address; true otherwise.)", "quantifier": "all addresses reachable through the API", "why_tests_cant": "every history", "anchors": ["pythagoras/_030_data_portals/value_addresses.py:ValueAddr.__init__", "pythagoras/_030_data_portals/value_addresses.py:ValueAddr.ready", "pythagoras/_030_data_portals/value_addresses.py:ValueAddr.get"]}
{"id": "C20", "title": "keyword order is irrelevant", "statement": "The address of a call (and the stored argument record) does not depend on the order in which keyword arguments are written.", "quantifier": "all argument dictionaries and permutations", "why_tests_cant": "factorially many permutations", "anchors": ["pythagoras/_070_pure_functions/kw_args.py:SortedKwArgs.__init__", "pythagoras/_070_pure_functions/pure_core_classes.py:PureFnExecutionResultAddr.__init__"]}
{"id": "C21", "title": "packing then unpacking restores arguments", "statement": "Packing keyword arguments into a portal and unpacking them returns the original values for arguments that are not addresses; arguments that are value addresses come back as the addressed value.", "quantifier": "all argument dictionaries", "why_tests_cant": "every argument dictionary", "anchors": ["pythagoras/_070_pure_functions/kw_args.py:SortedKwArgs.pack", "pythagoras/_070_pure_functions/kw_args.py:SortedKwArgs.unpack"]}
{"id": "C22", "title": "packed and unpacked arguments give the same call address", "statement": "Building a call address from raw values, from their value addresses or from any mixture of both yields the same address; packing is idempotent.", "quantifier": "all argument dictionaries", "why_tests_cant": "every mixture", "anchors": ["pythagoras/_070_pure_functions/kw_args.py:SortedKwArgs.pack", "pythagoras/_070_pure_functions/pure_core_classes.py:PureFnCallSignature.__init__"]}
{"id": "C23", "title": "memoization is transparent", "statement": "For deterministic function bodies (which may call other pure functions, recursively), calling a pure function through the library returns exactly what running its body with all nested calls evaluated directly would return, whatever results are already cached.", "quantifier": "all deterministic bodies, all call trees, all consistent caches", "why_tests_cant": "every program and cache history", "anchors": ["pythagoras/_070_pure_functions/pure_core_classes.py:PureFn.execute"]}
{"id": "C24", "title": "a cached call does not run the body again", "statement": "If the result of a call is already stored and consistency checks are off, calling it again does not run any body, returns the stored value and records no new attempt.", "quantifier": "all states", "why_tests_cant": "every history", "anchors": ["pythagoras/_070_pure_functions/pure_core_classes.py:PureFn.execute"]}
{"id": "C25", "title": "a recorded result never changes", "statement": "Once a result address has a stored result, no later call, with the same or different arguments, succeeding or failing, changes it - even for bodies that are not deterministic.", "quantifier": "all later histories, nondeterministic bodies included", "why_tests_cant": "every history", "anchors": ["pythagoras/_070_pure_functions/pure_core_classes.py:PureFn.execute", "pythagoras/_800_persidict_extensions/first_entry_dict.py"]}
{"id": "C26", "title": "a failed execution leaves no result", "statement": "If the body (or a guard) of a pure call raises, the exception propagates to the caller and the attempt is recorded, with what it printed and the traceback, which is also shown. If the code is deterministic there is no result for the call afterwards and its execution request is in place; for arbitrary code (which may complete the same call in a nested call) the call is either still requested or has a result.", "quantifier": "all failing bodies and states", "why_tests_cant": "every failure point", "anchors": ["pythagoras/_070_pure_functions/pure_core_classes.py:PureFn.execute", "pythagoras/_070_pure_functions/pure_core_classes.py:PureFnExecutionFrame"]}
{"id": "C27", "title": "a successful execution is fully recorded", "statement": "After a successful call the result is retrievable through the address, an attempt, an output and a result record for the run exist, and the pending execution request is gone.", "quantifier": "all bodies and states", "why_tests_cant": "every history", "anchors": ["pythagoras/_070_pure_functions/pure_core_classes.py:PureFn.execute", "pythagoras/_070_pure_functions/pure_core_classes.py:PureFnExecutionFrame"]}
{"id": "C28", "title": "consistency checking detects nondeterminism", "statement": "When a re-execution for consistency checking returns a value different from the stored one an error is raised and the stored result is kept; when it returns the same value the call succeeds; the check probability in force afterwards is the portal's configured one.", "quantifier": "all states, bodies, random draws", "why_tests_cant": "random draws and histories", "anchors": ["pythagoras/_070_pure_functions/pure_core_classes.py:PureFn.execute"]}
{"id": "C29", "title": "guards gate execution", "statement": "The body of a guarded function runs only if every guard returned normally for the arguments it was given; otherwise the call raises.", "quantifier": "all guards, arguments", "why_tests_cant": "every guard outcome", "anchors": ["pythagoras/_070_pure_functions/pure_core_classes.py:PureFn.can_be_executed", "pythagoras/_070_pure_functions/pure_core_classes.py:PureFn.execute"]}
{"id": "C30", "title": "guards see the same arguments as the function", "statement": "Guards are evaluated on the same argument values that the function body receives. (False when a call is executed through its address: guards then get value addresses.)", "quantifier": "all calls and routes", "why_tests_cant": "all routes", "anchors": ["pythagoras/_070_pure_functions/pure_core_classes.py:PureFnExecutionResultAddr.execute", "pythagoras/_070_pure_functions/pure_core_classes.py:PureFn.execute"]}
{"id": "C31", "title": "a call leaves the environment as found", "statement": "However a pure call ends, the stack of entered portals, the function's stack of running frames, and the stdout/stderr/log redirections are as before.", "quantifier": "all bodies, outcomes, nesting", "why_tests_cant": "every nesting and failure point", "anchors": ["pythagoras/_070_pure_functions/pure_core_classes.py:PureFnExecutionFrame.__exit__", "pythagoras/_810_output_manipulators/output_capturer.py"]}
{"id": "C32", "title": "batch calls return addresses in argument order", "statement": "run_list/swarm_list return one address per argument set, in the given order, regardless of the random order in which they are executed or requested; swarm_list requests exactly the not-yet-ready ones.", "quantifier": "all lists, all shuffles", "why_tests_cant": "factorially many shuffles", "anchors": ["pythagoras/_070_pure_functions/pure_core_classes.py:PureFn.swarm_list", "pythagoras/_070_pure_functions/pure_core_classes.py:PureFn.run_list"]}
{"id": "C33", "title": "grids enumerate the full product", "statement": "A parameter grid covers each combination of the listed parameter values exactly once (per listed occurrence), in a fixed order.", "quantifier": "all grids", "why_tests_cant": "infinite domain", "anchors": ["pythagoras/_070_pure_functions/pure_core_classes.py:PureFn.swarm_grid", "pythagoras/_070_pure_functions/pure_core_classes.py:PureFn.run_grid"]}
{"id": "C34", "title": "waiting for a result obeys its contract", "statement": "Waiting on an address returns the stored value if it is available at one of the polls; with a timeout it raises a timeout error only after the timeout has elapsed and it never waits more than one second past the timeout (plus time spent outside sleeping); pauses are at least one second; without timeout it never raises a timeout error.", "quantifier": "all readiness histories, timeouts and random jitters", "why_tests_cant": "continuous time and jitter", "anchors": ["pythagoras/_070_pure_functions/pure_core_classes.py:PureFnExecutionResultAddr.get"]}
{"id": "C35", "title": "retry policy", "statement": "A call is offered for execution exactly if it has no result and either was never attempted, or was attempted at most 5 times with the latest attempt older than 10*2^n seconds (n = attempts so far); after more than 5 attempts it is never offered again.", "quantifier": "all attempt histories and clocks", "why_tests_cant": "every history", "anchors": ["pythagoras/_070_pure_functions/pure_core_classes.py:PureFnExecutionResultAddr.needs_execution"]}
{"id": "C36", "title": "no lost requests", "statement": "In a swarm of any number of clients and workers, under every interleaving and with workers crashing at any point, a requested call whose result is not available yet keeps its request until its result is stored. An awaited call is always requested or already has a result, and at any moment any idle process can take a requested call and complete it.", "quantifier": "all interleavings, any number of processes, all crash points", "why_tests_cant": "schedules and crash points", "anchors": ["pythagoras/_070_pure_functions/pure_core_classes.py:PureFnExecutionResultAddr.request_execution", "pythagoras/_070_pure_functions/pure_core_classes.py:PureFn.execute", "pythagoras/_090_swarming_portals/swarming_portals.py:_process_random_execution_request"]}
{"id": "C37", "title": "swarm results agree", "statement": "Under every interleaving of clients and workers, and crashes, any stored result of a deterministic call is the correct result, results never change once stored, and a client that obtains a result obtains the correct one.", "quantifier": "all interleavings and crash points", "why_tests_cant": "schedules and crash points", "anchors": ["pythagoras/_070_pure_functions/pure_core_classes.py:PureFn.execute", "pythagoras/_070_pure_functions/pure_core_classes.py:PureFnExecutionResultAddr.get", "pythagoras/_800_persidict_extensions/first_entry_dict.py"]}
{"id": "C38", "title": "completed calls leave no pending request", "statement": "After a call's result is stored no request for it remains pending. What holds: once a call has a result, is not requested and no process is about to file a request for it, it is never requested again; and a request of a call with a result is never executed again by a worker. (The unrestricted claim is false under concurrency: a request may be filed after the result was stored by a process that checked readiness before, or may be left by a crash between storing the result and dropping the request.)", "quantifier": "all interleavings", "why_tests_cant": "schedules", "anchors": ["pythagoras/_070_pure_functions/pure_core_classes.py:PureFnExecutionResultAddr.request_execution", "pythagoras/_070_pure_functions/pure_core_classes.py:PureFnExecutionResultAddr.drop_execution_request"]}
{"id": "C39", "title": "workers stop with their parent", "statement": "A background worker keeps working exactly while the runtime id recorded for its node is the id of the program which launched it; once the record is removed or replaced, it starts at most the one call it had already committed to, and then stops. (Consequence: a second program on the same node and portal stops the first program's workers.)", "quantifier": "all histories of program starts/stops", "why_tests_cant": "process histories", "anchors": ["pythagoras/_090_swarming_portals/swarming_portals.py:SwarmingPortal.parent_runtime_is_live", "pythagoras/_090_swarming_portals/swarming_portals.py:_background_worker", "pythagoras/_090_swarming_portals/swarming_portals.py:_clean_runtime_id"]}
{"id": "C40", "title": "direct dependencies", "statement": "The direct-dependency map has exactly the given functions' names as keys and relates f to g iff g is one of the given functions and f's source refers to g as an external name, or g = f; it does not depend on order or duplication of the list.", "quantifier": "all lists of functions", "why_tests_cant": "every list", "anchors": ["pythagoras/_060_autonomous_functions/call_graph_explorer.py:explore_call_graph_shallow"]}
{"id": "C41", "title": "full dependencies are reachability", "statement": "The full-dependency map always terminates and relates f to g iff g is reachable from f through direct dependencies, independent of the iteration order of the sets involved, including cyclic graphs.", "quantifier": "all reference relations, all iteration orders", "why_tests_cant": "termination and order", "anchors": ["pythagoras/_060_autonomous_functions/call_graph_explorer.py:explore_call_graph_deep"]}
{"id": "C42", "title": "every external name is reported", "statement": "If a function's source uses (loads) a name that nothing in the function could bind - no parameter, assignment target, import, nested definition, exception name, comprehension target, or global/nonlocal declaration anywhere in it - the analysis reports the name as external.", "quantifier": "all syntax trees", "why_tests_cant": "unbounded syntax", "anchors": ["pythagoras/_060_autonomous_functions/names_usage_analyzer.py:NamesUsageAnalyzer"]}
{"id": "C43", "title": "reported names are real", "statement": "Every name the analysis reports as external occurs in the function as a loaded name or in a global/nonlocal declaration; every reported imported package is named in an import statement.", "quantifier": "all syntax trees", "why_tests_cant": "unbounded syntax", "anchors": ["pythagoras/_060_autonomous_functions/names_usage_analyzer.py:NamesUsageAnalyzer"]}
{"id": "C44", "title": "closures of nested functions are resolved", "statement": "A name used in a nested function and bound in the enclosing function before the nested definition is not reported as external; a name not bound in the enclosing function is.", "quantifier": "all syntax trees, all nesting", "why_tests_cant": "unbounded nesting", "anchors": ["pythagoras/_060_autonomous_functions/names_usage_analyzer.py:NamesUsageAnalyzer.visit_FunctionDef"]}
{"id": "C45", "title": "accepted functions are autonomous", "statement": "If a function is accepted and successfully completed as autonomous, every name it loads which is not bound anywhere inside it is a builtin, an allowed pythagoras name, a function of its island or the function itself; no yield occurs at its own level; a strictly autonomous function that can be run uses no island function except names that are also builtins.", "quantifier": "all sources and islands", "why_tests_cant": "unbounded syntax and islands", "anchors": ["pythagoras/_060_autonomous_functions/autonomous_core_classes.py:AutonomousFn._begin_fn_registration", "pythagoras/_060_autonomous_functions/autonomous_core_classes.py:AutonomousFn._complete_fn_registration"]}
{"id": "C46", "title": "self-contained functions are accepted", "statement": "A function that only uses its parameters and locally bound names is accepted. (False: keyword-only, positional-only and lambda parameters, the name of a nested recursive function, dotted imports, class and match bindings and names bound later in the text are reported as external, and a relative import raises; holds for functions with plain parameters and straight-line binding before use.)", "quantifier": "all syntax trees", "why_tests_cant": "unbounded syntax", "anchors": ["pythagoras/_060_autonomous_functions/names_usage_analyzer.py:NamesUsageAnalyzer.visit_FunctionDef"]}
{"id": "C47", "title": "one source per island and name", "statement": "At every moment each (island, function name) of a portal is associated with one source code; a successful registration never changes the source code of a registered name, an attempt to register a different source fails and changes nothing.", "quantifier": "all registration histories", "why_tests_cant": "every history", "anchors": ["pythagoras/_060_autonomous_functions/autonomous_core_classes.py:AutonomousFn._begin_fn_registration"]}
{"id": "C48", "title": "decorating the same function again succeeds", "statement": "Registering a function with identical source and decorator a second time succeeds exactly if the registered function's decorator is still the one it was declared with. (So the unconditional claim is false after the function was executed, because execution may flip it to strictly autonomous.)", "quantifier": "all histories", "why_tests_cant": "every history", "anchors": ["pythagoras/_060_autonomous_functions/autonomous_core_classes.py:AutonomousFn._begin_fn_registration", "pythagoras/_060_autonomous_functions/autonomous_core_classes.py:AutonomousFn._complete_fn_registration"]}
{"id": "C49", "title": "call addresses do not depend on history", "statement": "The augmented source and hence the identity of a pure function depend only on sources and decorators, not on which functions were executed earlier. (False: executing an autonomous dependency first changes its recorded decorator.)", "quantifier": "all histories", "why_tests_cant": "every history", "anchors": ["pythagoras/_070_pure_functions/pure_core_classes.py:PureFn._complete_fn_registration"]}
{"id": "C50", "title": "every registered handle can be executed", "statement": "Each function object successfully created for a registered function can complete its registration and be executed. (False for a second pure-function object, or a second autonomous one, created before the first completes, and for a function executed before its dependency was defined; true for functions with a single object each.)", "quantifier": "all histories of creation and completion", "why_tests_cant": "every history", "anchors": ["pythagoras/_070_pure_functions/pure_core_classes.py:PureFn._complete_fn_registration", "pythagoras/_060_autonomous_functions/autonomous_core_classes.py:AutonomousFn._complete_fn_registration"]}
{"id": "C51", "title": "a stored pure function can be restored in a fresh session", "statement": "Restoring a pickled pure function in a session which does not know it re-registers all of its dependencies and yields the same augmented source; a restored function whose island already holds a different function of the same name is refused. (False for guards sorting after the function name and for guards of dependencies: restoring succeeds exactly if every guard named in the augmented source is the function itself or is listed before the function it guards.)", "quantifier": "all dependency graphs", "why_tests_cant": "all graphs and name orders", "anchors": ["pythagoras/_070_pure_functions/pure_core_classes.py:PureFn.__setstate__", "pythagoras/_070_pure_functions/process_augmented_func_src.py:process_augmented_func_src"]}
{"id": "C52", "title": "augmented source = function + dependencies + guards", "statement": "The augmented source contains the decorated source of exactly the function, its transitive dependencies in the island and its guards, in name order, so equal registrations give equal augmented sources independent of declaration order and of the order in which guards are listed. (False when the island grows between the first completion of a function and its use: the dependencies are frozen at the first completion.)", "quantifier": "all islands and declaration orders", "why_tests_cant": "all orders", "anchors": ["pythagoras/_070_pure_functions/pure_core_classes.py:PureFn._complete_fn_registration"]}
{"id": "C53", "title": "normalization ignores annotations, docstrings, decorators", "statement": "Two functions whose syntax trees differ only in type annotations of arguments/returns, docstrings and the single pythagoras decorator normalize to the same tree; anything else is preserved: functions that normalize to the same tree have the same structure apart from these parts.", "quantifier": "all syntax trees", "why_tests_cant": "unbounded syntax", "anchors": ["pythagoras/_040_ordinary_functions/code_normalizer_implementation.py:__get_normalized_function_source__"]}
{"id": "C54", "title": "normalization is idempotent", "statement": "Normalizing a normalized function changes nothing. (False if a body starts with two string expressions; true otherwise.)", "quantifier": "all syntax trees", "why_tests_cant": "unbounded syntax", "anchors": ["pythagoras/_040_ordinary_functions/code_normalizer_implementation.py:__get_normalized_function_source__"]}
{"id": "C55", "title": "indentation removal", "statement": "Removing blank lines and the common indentation keeps all non-blank lines, in order, each minus exactly the first line's indentation, and fails if some line is indented less.", "quantifier": "all texts", "why_tests_cant": "infinite domain", "anchors": ["pythagoras/_040_ordinary_functions/code_normalizer_implementation.py:__get_normalized_function_source__"]}
{"id": "C56", "title": "an exception is logged once in each entered portal", "statement": "When an exception leaves a portal block or a pythagoras function, every portal entered at the innermost logging point receives one crash record, and passing through further blocks adds none.", "quantifier": "all exceptions and nestings", "why_tests_cant": "all nestings", "anchors": ["pythagoras/_020_logging_portals/logging_portals.py:LoggingPortal._exception_logger", "pythagoras/_020_logging_portals/logging_portals.py:LoggingPortal._persist_exception_information", "pythagoras/_020_logging_portals/logging_portals.py:LoggingPortal.__exit__"]}
{"id": "C57", "title": "exceptions are never swallowed", "statement": "A portal block never suppresses an exception raised in it and never replaces it when blocks are properly nested.", "quantifier": "all programs", "why_tests_cant": "all nestings", "anchors": ["pythagoras/_020_logging_portals/logging_portals.py:LoggingPortal.__exit__"]}
{"id": "C58", "title": "normal operations log no crashes", "statement": "An operation which returns normally adds no crash record. (False: a value lookup that falls back to another portal logs the caught KeyError, and a block completed inside an except clause logs the exception being handled.)", "quantifier": "all operations", "why_tests_cant": "every history", "anchors": ["pythagoras/_030_data_portals/value_addresses.py:ValueAddr.get", "pythagoras/_020_logging_portals/logging_portals.py:LoggingPortal.__exit__"]}
{"id": "C59", "title": "events reach each entered portal exactly once", "statement": "Logging an event stores one record in every entered portal's event log under today's date and the event id, and nothing in other portals; the stored record contains all given keyword arguments unchanged. (False for an event id used before on the same day: an error is raised after some of the portals were written.)", "quantifier": "all contexts, events", "why_tests_cant": "every context", "anchors": ["pythagoras/_020_logging_portals/logging_portals.py:LoggingPortal.log_event", "pythagoras/_020_logging_portals/logging_portals.py:LoggingPortal.add_execution_environment_summary"]}
{"id": "C60", "title": "uncaught-exception hook is restored", "statement": "After creating portals and clearing them, the interpreter's exception hook is what it was before. (False outside notebooks: the saved hook is stored in a local variable and never restored; in a notebook the custom handler is removed.) Uncaught exceptions reach the library's handler while a portal exists.", "quantifier": "all hooks", "why_tests_cant": "every history", "anchors": ["pythagoras/_020_logging_portals/logging_portals.py:register_systemwide_uncaught_exception_handlers", "pythagoras/_020_logging_portals/logging_portals.py:unregister_systemwide_uncaught_exception_handlers"]}
{"id": "C61", "title": "output capture duplicates faithfully", "statement": "Everything written to stdout, stderr or logged while capturing appears in the captured text in order, and the original streams receive exactly what they would have without capturing; with nested captures each captures everything written while it is active. (The claim about the originals is false for log messages below a handler's level, and for warnings when there is no log handler.)", "quantifier": "all write sequences and nestings", "why_tests_cant": "all interleavings and depths", "anchors": ["pythagoras/_810_output_manipulators/output_capturer.py:OutputCapturer"]}
{"id": "C62", "title": "output redirection is undone", "statement": "After a capturing or suppressing block ends, normally or by an exception, stdout, stderr and the log handlers are the ones in place when it started; while suppressing, nothing reaches the originals. (False for log handlers, which keep writing to the stream they were created with, and for a capturer created before the block in which it is entered.)", "quantifier": "all programs", "why_tests_cant": "all nestings", "anchors": ["pythagoras/_810_output_manipulators/output_capturer.py:OutputCapturer.__exit__", "pythagoras/_810_output_manipulators/output_suppressor.py:OutputSuppressor"]}
{"id": "C63", "title": "unique names", "statement": "The unique-name helper returns a name not in the existing set, which is the desired name itself if free and otherwise the desired name with a numeric suffix, for every set leaving some suffix free. The search ends with probability 1: with n existing names, it still goes on after r random numbers in at most an (n/10^10)^r share of their outcomes.", "quantifier": "all name sets and random draws", "why_tests_cant": "random draws", "anchors": ["pythagoras/_020_logging_portals/logging_portals.py:LoggingPortal.make_unique_name"]}
{"id": "C64", "title": "date strings sort chronologically", "statement": "For dates with four-digit years, the date strings used in log paths are injective and their lexicographic order is chronological. The date string of a moment is its Gregorian calendar date.", "quantifier": "all dates 1000-9999", "why_tests_cant": "large domain", "anchors": ["pythagoras/_820_strings_signatures_converters/current_date_gmt_str.py:current_date_gmt_string"]}
{"id": "C65", "title": "sub-dictionaries of a multi-dict are isolated", "statement": "In a multi-dictionary writing, or deleting, through one typed view never affects what is read through another typed view.", "quantifier": "all keys, values, views", "why_tests_cant": "every history", "anchors": ["pythagoras/_800_persidict_extensions/overlapping_multi_dict.py:OverlappingMultiDict"]}
{"id": "C66", "title": "default portal is a singleton", "statement": "Requesting the default portal repeatedly returns one and the same initialised portal, registered once. (False after a clear-all issued through the base class, as `initialize` does: a cleared instance is returned; false also if the first initialisation raised.)", "quantifier": "all histories of requests and clears", "why_tests_cant": "every history", "anchors": ["pythagoras/_100_default_local_portals/default_local_portal.py:DefaultLocalPortal"]}
{"id": "C67", "title": "function name extraction", "statement": "For a source whose first line starting with 'def ' is `def NAME(`, the extracted name is NAME.", "quantifier": "all sources", "why_tests_cant": "infinite domain", "anchors": ["pythagoras/_040_ordinary_functions/function_name.py:get_function_name_from_source"]}
{"id": "C68", "title": "test contexts isolate", "statement": "After a portal-tester block no portals are known or entered, whatever happened inside with balanced blocks; testers cannot be nested. (False if the body clears the portals itself, if the portal's constructor raises or if a tester is created without being entered: all later testers are refused.)", "quantifier": "all histories", "why_tests_cant": "every history", "anchors": ["pythagoras/_010_basic_portals/portal_tester.py:_PortalTester"]}
{"id": "C69", "title": "portal-aware objects rebind to the current portal when unpickled", "statement": "An address or function unpickled inside a portal block is bound to that block's portal, with everything inside it, and equals the original; pickled data never contains the portal. Outside of all blocks exactly the objects without autonomous or pure functions in them can be unpickled; result addresses and call signatures are then bound at first use, value addresses stay without portal. Two addresses are equal iff they have the same type and the same text.", "quantifier": "all objects (nested in any way), contexts (histories of entering and leaving blocks)", "why_tests_cant": "every context", "anchors": ["pythagoras/_010_basic_portals/portal_aware_classes.py:PortalAwareClass", "pythagoras/_030_data_portals/value_addresses.py:ValueAddr.__setstate__"]}
{"id": "C70", "title": "normalization preserves string literals", "statement": "Two functions whose normalized source is the same compute the same values: apart from comments, docstrings, annotations and decorators, the text of a function, in particular its multi-line string literals, reaches the parser unchanged. (False: blank lines inside multi-line string literals are removed, so functions returning different strings get the same identity.)", "quantifier": "all source texts", "why_tests_cant": "infinite domain", "anchors": ["pythagoras/_040_ordinary_functions/code_normalizer_implementation.py:__get_normalized_function_source__"]}
{"id": "C71", "title": "names mean what the user expects when a function runs", "statement": "When the body of an autonomous or pure function runs, every outside name it uses is available and means the registered function of its island, the function object itself (its own name, self), the library (pth) or the Python builtin of that name; no other name of the library leaks into it. (False for bare decorator names such as `pure`: the library accepts functions using them, but they are not available at run time.)", "quantifier": "all islands, registration histories, functions and names", "why_tests_cant": "every history and every name", "anchors": ["pythagoras/_040_ordinary_functions/ordinary_core_classes.py:OrdinaryFn._available_names", "pythagoras/_060_autonomous_functions/autonomous_core_classes.py:AutonomousFn._available_names", "pythagoras/_060_autonomous_functions/autonomous_core_classes.py:AutonomousFn._complete_fn_registration"]}
{"id": "C72", "title": "workers execute every executable request, and no other", "statement": "A background worker executes only requested calls that need execution and can be executed in its environment; every such request may be chosen, and if there is one, one is executed; if there is none, nothing changes and the worker looks again. (False if checking one request raises: then no worker executes anything for as long as this request is there.)", "quantifier": "all request queues, enumeration orders, random choices and histories", "why_tests_cant": "random scan order and unbounded histories", "anchors": ["pythagoras/_090_swarming_portals/swarming_portals.py:_process_random_execution_request", "pythagoras/_070_pure_functions/pure_core_classes.py:PureFnExecutionResultAddr.needs_execution", "pythagoras/_070_pure_functions/pure_core_classes.py:PureFnExecutionResultAddr.can_be_executed"]}
{"id": "C73", "title": "execution records belong to their own execution", "statement": "The records of a call are exactly those of the executions that began; each record shows the context, output, result and crashes of its own execution and of no other, and recording never overwrites an earlier record.", "quantifier": "all histories of (crashing, repeated, overlapping) executions of a call and all enumeration orders", "why_tests_cant": "random session ids, every interleaving of executions", "anchors": ["pythagoras/_070_pure_functions/pure_core_classes.py:PureFnExecutionRecord", "pythagoras/_070_pure_functions/pure_core_classes.py:PureFnExecutionFrame", "pythagoras/_070_pure_functions/pure_core_classes.py:PureFnExecutionResultAddr.execution_records"]}
{"id": "C74", "title": "workers of a finished program stop", "statement": "When a program ends, no record with its runtime id remains in any portal it created, so its background workers stop (C39). (True iff the program created a swarming portal while no other portal was known; false if its first portal is of another class: the cleanup at exit is never registered and the workers go on for ever.)", "quantifier": "all sequences of portal constructions (also failing ones) and clearings", "why_tests_cant": "every history of constructions", "anchors": ["pythagoras/_090_swarming_portals/swarming_portals.py:SwarmingPortal.__init__", "pythagoras/_090_swarming_portals/swarming_portals.py:_clean_runtime_id", "pythagoras/_090_swarming_portals/swarming_portals.py:SwarmingPortal._clear"]}
{"id": "C75", "title": "portal constructors are all or nothing, clearing always works", "statement": "A portal's constructor succeeds exactly if its parameters are acceptable; then the portal is complete and the most recently added known one, and no other portal changed. A failed construction leaves no trace, and clearing all portals always succeeds. (False: the unfinished object of a failed construction stays known as the most recently added portal; after a failed construction of a swarming portal, clearing all portals raises for the rest of the program.)", "quantifier": "all portal classes, parameters and histories", "why_tests_cant": "every parameter combination and history", "anchors": ["pythagoras/_010_basic_portals/foundation.py:BasicPortal.__init__", "pythagoras/_010_basic_portals/foundation.py:BasicPortal._clear_all", "pythagoras/_030_data_portals/data_portals.py:DataPortal.__init__", "pythagoras/_060_autonomous_functions/autonomous_core_classes.py:AutonomousCodePortal.__init__", "pythagoras/_090_swarming_portals/swarming_portals.py:SwarmingPortal.__init__"]}
{"id": "C76", "title": "uncaught exceptions are shown and recorded", "statement": "An exception that leaves the program (a notebook cell) while portals are entered is shown to the user as its traceback and has exactly one record in the crash history of each entered portal. (True in notebooks; false in scripts: the installed hook asks for the exception being handled, and there is none while the interpreter's exception hook runs.)", "quantifier": "all programs, sessions, portal stacks, hooks and exceptions", "why_tests_cant": "ends the process; every program and history", "anchors": ["pythagoras/_020_logging_portals/logging_portals.py:pth_excepthook", "pythagoras/_020_logging_portals/logging_portals.py:pth_excepthandler", "pythagoras/_020_logging_portals/logging_portals.py:LoggingPortal._exception_logger"]}
{"id": "C77", "title": "crash records are filed under their function", "statement": "Every exception that leaves a function is recorded once under the path of this function and once among all exceptions of the day, and reaches the caller; the records under a function's path belong to this function only; no record replaces another. (False: different functions can share a path, e.g. load_data in island main and load in island data_main; and with a character such as a space in the name of the island nothing is recorded and the caller gets a storage error instead.)", "quantifier": "all sequences of crashes, function names, island names and exception classes", "why_tests_cant": "every name and history", "anchors": ["pythagoras/_040_ordinary_functions/ordinary_core_classes.py:OrdinaryFn._exception_prefixes", "pythagoras/_060_autonomous_functions/autonomous_core_classes.py:AutonomousFn._exception_prefixes", "pythagoras/_070_pure_functions/pure_core_classes.py:PureFn._exception_id", "pythagoras/_020_logging_portals/logging_portals.py:LoggingPortal._persist_exception_information"]}
{"id": "C78", "title": "callers get the exception that occurred", "statement": "The caller of a function gets the exception raised by its body, or the one that says why the function could not be executed. (True for bodies and for pure functions; false for autonomous functions that cannot be completed: collecting data for the crash record raises another exception, about a missing attribute.)", "quantifier": "all histories of definitions, executions, picklings and restorations, all functions", "why_tests_cant": "every history", "anchors": ["pythagoras/_040_ordinary_functions/ordinary_core_classes.py:OrdinaryFn.execute", "pythagoras/_060_autonomous_functions/autonomous_core_classes.py:AutonomousFn._extra_exception_data", "pythagoras/_070_pure_functions/pure_core_classes.py:PureFn._extra_exception_data"]}
{"id": "C79", "title": "recursive calls go through the decorator", "statement": "Calling a decorated function executes its own source in which only the name in the header is changed: all other text, also further occurrences of the name, stays as it is; inside its body the function's name means the decorated function, so recursive calls are guarded, cached and logged like all others; the helper names used for a call clash neither with each other nor with the function's name nor with those of another function. (False for a source that defines the same name a second time, and functions with type parameters cannot be executed at all.)", "quantifier": "all sources, names and signatures", "why_tests_cant": "every text of a body, also one that mentions its own name in strings", "anchors": ["pythagoras/_040_ordinary_functions/ordinary_core_classes.py:OrdinaryFn._complete_fn_registration", "pythagoras/_040_ordinary_functions/ordinary_core_classes.py:OrdinaryFn.execute"]}
{"id": "C80", "title": "decorators survive the transport between processes", "statement": "The decorator of a function, printed into the augmented source of a pure function and read back in another process, is the same decorator: same kind, same island, same guards. (True exactly for island names without quotes, line ends, null characters and escapes; other names give a syntax error, another island or additional arguments in the other process.)", "quantifier": "all island names, guards and kinds of decorators, all texts that follow", "why_tests_cant": "every name", "anchors": ["pythagoras/_060_autonomous_functions/autonomous_core_classes.py:AutonomousFn.decorator", "pythagoras/_070_pure_functions/pure_core_classes.py:PureFn.decorator", "pythagoras/_070_pure_functions/process_augmented_func_src.py:process_augmented_func_src", "pythagoras/_070_pure_functions/astkeywords_dict_convertors.py:convert_astkeywords_to_dict"]}
{"id": "C81", "title": "background processes stay few and get the parameters of their portal", "statement": "Every process started in the background is a worker launched by the constructor of a portal, or was launched by such a worker for one request; its portal has the parameters of that portal (directory, probability of checks, island, runtime id), with no workers of its own. A worker has at most one such process at a time, so that there are never more than twice as many background processes as workers requested; background processes launch no workers, write no runtime record and never remove one when they end. (False for the default portal: its workers end at once, because its constructor does not take the parameters.)", "quantifier": "all programs creating any number of portals, all interleavings of the processes, processes being killed at any time", "why_tests_cant": "every schedule and crash point, any number of portals and processes", "anchors": ["pythagoras/_090_swarming_portals/swarming_portals.py:SwarmingPortal._launch_background_worker", "pythagoras/_090_swarming_portals/swarming_portals.py:_background_worker", "pythagoras/_090_swarming_portals/swarming_portals.py:_process_random_execution_request", "pythagoras/_090_swarming_portals/swarming_portals.py:SwarmingPortal.get_params", "pythagoras/_100_default_local_portals/default_local_portal.py:DefaultLocalPortal"]}
{"id": "C82", "title": "the address of a call describes the call", "statement": "Every question asked of the address of a call f(**kw) (function, fn, fn_name, fn_source_code, island_name, arguments, kwargs, execution_requested) succeeds and is answered with the function, its name, source and island, the argument values sorted by name, and whether an execution is requested. This holds at once, after any later history, after any other questions, and for an address rebuilt from its text by anybody. Asking executes no code and stores or removes no result and no request.", "quantifier": "all functions, arguments, portals, histories before and after, sequences of questions", "why_tests_cant": "every history and every order of questions", "anchors": ["pythagoras/_070_pure_functions/pure_core_classes.py:PureFnExecutionResultAddr.function", "pythagoras/_070_pure_functions/pure_core_classes.py:PureFnExecutionResultAddr.fn_name", "pythagoras/_070_pure_functions/pure_core_classes.py:PureFnExecutionResultAddr.arguments", "pythagoras/_070_pure_functions/pure_core_classes.py:PureFnExecutionResultAddr.kwargs", "pythagoras/_070_pure_functions/pure_core_classes.py:PureFnExecutionResultAddr.execution_requested", "pythagoras/_070_pure_functions/pure_core_classes.py:PureFnCallSignature"]}
{"id": "C83", "title": "the address of a result, passed as an argument, stands for the call and not for its result", "statement": "When the address of a call is passed as an argument of another pure call, the packed argument is the address of the signature of the inner call, determined by its function and argument values alone, in whatever portal and whenever it is packed and whether or not the inner call has a result. The callee receives the signature object, never the result.", "quantifier": "all calls, portals, histories before and after, whether or not the result is stored", "why_tests_cant": "every history", "anchors": ["pythagoras/_070_pure_functions/pure_core_classes.py:PureFnExecutionResultAddr.get_ValueAddr", "pythagoras/_030_data_portals/value_addresses.py:ValueAddr.__init__", "pythagoras/_070_pure_functions/kw_args.py:SortedKwArgs.pack", "pythagoras/_070_pure_functions/kw_args.py:SortedKwArgs.unpack"]}
{"id": "C84", "title": "reading the result of a call gives what the code returned", "statement": "Once the code of a pure function has returned an object, reading the result of the call gives that object. True for values. False for address objects: if the code returns a ValueAddr, the first call returns the address and every later call the value it points to; if it returns the address of another call, later calls return the signature object of that call.", "quantifier": "all calls without a stored result, all returned objects, all histories before", "why_tests_cant": "every history and every returned object", "anchors": ["pythagoras/_070_pure_functions/pure_core_classes.py:PureFn.execute", "pythagoras/_030_data_portals/value_addresses.py:ValueAddr.__init__", "pythagoras/_070_pure_functions/pure_core_classes.py:PureFnExecutionResultAddr.get"]}
{"id": "C85", "title": "any portals can be entered together", "statement": "Programs may nest the blocks of any portals: exceptions pass through the blocks as the objects that were raised, blocks are left again, and events logged inside reach every entered portal. True exactly when all entered portals write logs and no two of them have the same directory. False otherwise: with two portal objects for one directory (for instance after connecting twice), an exception is replaced by an error of the log dictionary, the portals stay entered for the rest of the session, and log_event fails.", "quantifier": "all sessions, programs of nested blocks, exceptions, handlers and events, all assignments of directories and classes to portal objects", "why_tests_cant": "every nesting, every exception path and every assignment of directories", "anchors": ["pythagoras/_020_logging_portals/logging_portals.py:LoggingPortal._persist_exception_information", "pythagoras/_020_logging_portals/logging_portals.py:LoggingPortal.__exit__", "pythagoras/_020_logging_portals/logging_portals.py:LoggingPortal.log_event", "pythagoras/_010_basic_portals/foundation.py:BasicPortal._entered_portals", "pythagoras/_110_top_level_API/top_level_API.py:connect_to_local_portal"]}
{"id": "C86", "title": "Decorating a function object again", "statement": "Applying a function decorator to a function object (stacked decorators, or re-wrapping an existing function) yields a working object for the same source code: ordinary/safe accept any function object; pure over pure is the same operation as decorating the source again; autonomous over autonomous makes another object of the same function which runs exactly when the original runs; existing functions keep working.", "quantifier": "every reachable registry of functions, every function object in it, every portal, island, guards and class of decorator", "why_tests_cant": "whether the new object can be executed depends on the class of the given object, on which objects of the same name were completed before, and on which portal and island know the name", "anchors": ["pythagoras/_040_ordinary_functions/ordinary_core_classes.py: OrdinaryFn.__init__, OrdinaryFn.update", "pythagoras/_050_safe_functions/safe_core_classes.py: SafeFn.__init__", "pythagoras/_060_autonomous_functions/autonomous_core_classes.py: AutonomousFn.__init__, AutonomousFn.update, AutonomousFn._complete_fn_registration", "pythagoras/_070_pure_functions/pure_core_classes.py: PureFn.__init__, PureFn.update"]}
{"id": "C87", "title": "Only ordinary functions are accepted", "statement": "A decorator accepts a Python object exactly if it is an ordinary function: written with `def`, not a lambda, not asynchronous, without `*args`, not a closure, with no decorator but the Pythagoras one, and with available source; bound methods, classes, built-ins, partials, callable instances and data are refused. What is kept is that function's own source.", "quantifier": "every callable, however it was made (def, async def, lambda, closures, methods, functools.partial, functools.wraps chains, classes, built-ins), every parser and printer, every source text", "why_tests_cant": "the ways of making callables compose (wrappers of wrappers, bound wrapped functions), and the checks look at different layers of the composition", "anchors": ["pythagoras/_040_ordinary_functions/assert_ordinarity.py: assert_ordinarity", "pythagoras/_040_ordinary_functions/check_n_positional_args.py: accepts_unlimited_positional_args", "pythagoras/_040_ordinary_functions/code_normalizer_implementation.py: __get_normalized_function_source__"]}
{"id": "C88", "title": "Every visible request or result can be rebuilt (crash consistency)", "statement": "Whoever finds a request or a result in a portal can rebuild the call from it: its signature, function, packed arguments and every argument value were stored before it became visible, whatever processes crashed at whatever point. The code a worker starts for a request is exactly the requested function on the requested argument values. What holds: everything is stored in some portal of the application; it is all in the same portal if address objects are not passed between portals, or only one portal is used; and then, or if every process knows all portals, no process ever finds anything missing. (If address objects are passed between portals the unrestricted claim is false: a result is copied from another portal before the call it belongs to, so a crash in between leaves a result without its call; and an address object unpickled in another portal is passed on as an argument without its value.)", "quantifier": "all interleavings of any number of processes using any operations of the API on any number of shared portals, all crash points, all functions and arguments; with or without consistency checks", "why_tests_cant": "schedules and crash points; the window between two file operations cannot be hit by a test", "anchors": ["pythagoras/_070_pure_functions/pure_core_classes.py: PureFn.get_address, PureFn.swarm, PureFn.execute, PureFn.swarm_list, PureFnCallSignature.__init__, PureFnExecutionResultAddr.__init__, PureFnExecutionResultAddr._ready_in_noncurrent_portals, PureFnExecutionResultAddr.function, PureFnExecutionResultAddr.arguments", "pythagoras/_070_pure_functions/kw_args.py: SortedKwArgs.pack, SortedKwArgs.unpack", "pythagoras/_030_data_portals/value_addresses.py: ValueAddr.__init__, ValueAddr.get", "pythagoras/_090_swarming_portals/swarming_portals.py: _process_random_execution_request"]}
{"id": "C89", "title": "A result is what evaluating the call gives, in every portal", "statement": "When processes share portals, run calls concurrently, copy results between portals and die anywhere, every result stored for a call, and every value returned as its result by f(**kw), addr.execute() or addr.get(), is a value that simply evaluating the call can give. If evaluating a call gives at most one value - as is so for functions that may compute, call functions, store and fetch values, start calls elsewhere and wait for them, but do not look whether a result is ready - the result of a call is the same in all portals, for all processes and at all times, and a stored result never changes even if several processes compute and write it.", "quantifier": "all function codes, numbers of processes and portals, interleavings of single dictionary accesses, and crash points; with or without consistency checks", "why_tests_cant": "a wrong value needs a particular interleaving of file accesses of several processes, of which there are unboundedly many", "anchors": ["pythagoras/_070_pure_functions/pure_core_classes.py: PureFn.execute, PureFnExecutionResultAddr.ready, _ready_in_noncurrent_portals, get, execute", "pythagoras/_090_swarming_portals/swarming_portals.py: process_random_execution_request"]}
{"id": "C90", "title": "A worker or caller that is not killed gets its call done", "statement": "If evaluating a call terminates without waiting for others in addr.get() without a timeout, then a worker that picked up a visible request for it - whoever made the request, and wherever processes died before - finishes after finitely many of its own steps, whatever the other processes do in between, and never gets stuck; then a value of the call is stored in the portal of the request. So no crash leaves a request that cannot be served. Every operation except addr.get() without a timeout, made anywhere in a program, returns (or raises) after finitely many own steps of its process, f(**kw) with a value of the call; addr.get() of a call with a stored result returns it; and a program that uses such operations comes to its end; whatever the others do in between.", "quantifier": "all reachable states of any number of processes and portals (all interleavings and crash points before), all behaviours of the other processes in between, all functions whose evaluation terminates, all infinite executions; with or without consistency checks", "why_tests_cant": "a liveness property: 'never stuck whatever the others do' quantifies over infinite executions and all interference; a test that ends shows nothing", "anchors": ["pythagoras/_070_pure_functions/pure_core_classes.py: PureFn.execute, PureFnExecutionResultAddr.execute, get, ready, request_execution", "pythagoras/_090_swarming_portals/swarming_portals.py: process_random_execution_request"]}
{"id": "C91", "title": "An additional portal does not disturb", "statement": "Creating one more portal does not change what a program gets from the portals it had: a value held by the portal of its address, and a call whose result is held by the portal of its function, are answered the same whatever other portals of whatever class there are; and an additional empty portal of a sufficient class changes neither values nor calls. (The claim for portals of any class is false of the code: a single known portal that is not a DataPortal makes every retrieval of a value that the own portal lacks raise AssertionError, even if another portal has the value; and a single known portal that is not a PureCodePortal, e.g. a DataPortal used as an archive, makes every call without a result in the own portal raise AssertionError instead of running. The theorems say exactly when.)", "quantifier": "all sets of portals of all classes, all portal stacks, all contents of all portals, all functions and arguments", "why_tests_cant": "combinations of portal classes and contents are unbounded; tests use one or two portals of one class", "anchors": ["pythagoras/_010_basic_portals/foundation.py: get_noncurrent_portals", "pythagoras/_030_data_portals/value_addresses.py: ValueAddr.get, get_from_noncurrent_portals", "pythagoras/_070_pure_functions/pure_core_classes.py: PureFn.execute, PureFnExecutionResultAddr._ready_in_noncurrent_portals, ready"]}
{"id": "C92", "title": "Requests are not lost; an answered call has its result stored", "statement": "A request for the execution of a call disappears from a portal only when that portal has the result of the call, unless somebody calls drop_execution_request() for it: whatever other processes do concurrently and wherever processes die. When f.swarm(), f.swarm_list() or addr.request_execution() return, each of their calls is requested in the portal, or has a result there, and stays so. The returned addresses are those of the calls, in the given order. When f(**kw) or addr.get() return a value, or addr.ready is true, the portal of the function or address has a result of the call, even if it was found in another portal. While a process waits in addr.get() without a timeout, the call is requested or has a result.", "quantifier": "all interleavings, access by access, of any number of processes using any operations on any number of shared portals, all crash points, all functions and arguments; with or without consistency checks", "why_tests_cant": "losing a request takes a particular interleaving or crash point between two file accesses", "anchors": ["pythagoras/_070_pure_functions/pure_core_classes.py: PureFn.swarm, PureFn.swarm_list, PureFn.execute, PureFnExecutionResultAddr.request_execution, drop_execution_request, ready, get", "pythagoras/_090_swarming_portals/swarming_portals.py: process_random_execution_request"]}
{"id": "C93", "title": "What is swarmed gets done (end to end)", "statement": "If f.swarm(**kw) (or f.swarm_list) has returned an address, nobody calls drop_execution_request() for it, evaluating the call comes to an end without waiting for others (for waiting see C97) and can only give v, and a request that stays visible is eventually found by some worker that is not killed while it works on it, then from some time on the result of the call is stored in the portal of f, it is v, and addr.get() with whatever timeout, or without one, returns v - whatever all processes do, even if the client dies and other workers die over the request.", "quantifier": "all infinite executions of any number of processes on any number of shared portals (all interleavings and crash points), all functions whose evaluation terminates, all plain arguments; with or without consistency checks", "why_tests_cant": "a liveness property over infinite executions; a lost wake-up or a request dropped in a race would show only for particular interleavings", "anchors": ["pythagoras/_070_pure_functions/pure_core_classes.py: PureFn.swarm, PureFn.swarm_list, PureFn.execute, PureFnExecutionResultAddr.request_execution, execute, ready, get", "pythagoras/_090_swarming_portals/swarming_portals.py: process_random_execution_request"]}
{"id": "C94", "title": "describe() tells the truth", "statement": "portal.describe() has one row for each quantity: 'Values, total' is the number of different values ever stored in the portal's directory, 'Cached execution results' the number of different calls with a stored result, 'Execution queue size' the number of calls requested and not dropped since, 'Exceptions, total' the number of exceptions recorded (each counted once, wherever raised), 'Exceptions, today' those of the current day; 'Islands' and 'Functions in <X>' are the islands and functions registered through this portal object. Rows of type Disk are the same for every portal object and program that uses the directory, rows of type Runtime depend on this program only. pythagoras.describe() raises exactly when there are no portals, and its rows with the number of a portal are the description of that portal.", "quantifier": "all histories of writes by any number of programs, days, restarts, portals and registrations; all classes of portals", "why_tests_cant": "the numbers must be right after every history; tests look at a handful of them with one program", "anchors": ["pythagoras/_010_basic_portals/foundation.py: BasicPortal.describe, _persistent, _runtime", "pythagoras/_020_logging_portals/logging_portals.py: LoggingPortal.describe, _persist_exception_information", "pythagoras/_030_data_portals/data_portals.py: DataPortal.describe", "pythagoras/_060_autonomous_functions/autonomous_core_classes.py: AutonomousCodePortal.describe", "pythagoras/_070_pure_functions/pure_core_classes.py: PureCodePortal.describe", "pythagoras/_090_swarming_portals/swarming_portals.py: SwarmingPortal.describe", "pythagoras/_110_top_level_API/top_level_API.py: describe"]}
{"id": "C95", "title": "Installing and uninstalling packages", "statement": "If install_package(name, upgrade, version) returns normally, the package is installed (in the requested version, if any), a module of that name is loaded, and no other package was removed; it returns normally exactly if pip succeeds and the module is loaded or can be imported afterwards. If uninstall_package(name) returns normally, the package is gone, all others are as before and no new program can import a module of that name; it raises exactly if pip fails or such a module can still be imported. After either of them the running program sees the new state.", "quantifier": "all sets of installed packages, all states of the program's loaded modules, all packages, versions and contents of packages, every pip that installs and uninstalls what it is told to", "why_tests_cant": "tests use one package whose module has the same name, with no other version loaded", "anchors": ["pythagoras/_050_safe_functions/package_manager.py: install_package, uninstall_package"]}
{"id": "C96", "title": "What kind of function is this?", "statement": "is_autonomous, is_loosely_autonomous, is_strictly_autonomous and is_pure raise exactly for things that are not callable; an autonomous function is exactly one of loosely and strictly autonomous; pure functions are autonomous. Until a new function is run, it is strictly autonomous exactly if it was declared so. Once its body has run, it is strictly autonomous exactly if it uses nothing but builtins, pth and itself, loosely autonomous exactly if it uses a function of its island, and the answers about it never change again.", "quantifier": "all function sources, all histories of decorating, running, pickling and restoring functions on all islands and portals, all function objects", "why_tests_cant": "the answer changes at the first run and depends on the island's contents at that time; tests check a few functions", "anchors": ["pythagoras/_060_autonomous_functions/autonomicity_checks.py: is_autonomous, is_loosely_autonomous, is_strictly_autonomous", "pythagoras/_070_pure_functions/purity_checks.py: is_pure", "pythagoras/_060_autonomous_functions/autonomous_core_classes.py: AutonomousFn._complete_fn_registration, strictly_autonomous"]}
{"id": "C97", "title": "Functions may start calls elsewhere and wait for them (fork-join)", "statement": "If the evaluation of a call starts other calls with f.swarm() and waits for their results with addr.get(), and a worker is eventually found for every request that stays visible, then the call gets done: if f.swarm(**kw) returned an address, evaluating the call comes to an end and can only give v, and for this call and for all calls somebody waits for nobody calls drop_execution_request() and a request that stays visible is eventually taken by a worker that is not killed over it, then from some time on the result is stored and is v; a program that starts calls elsewhere and waits comes to its end; addr.get() without a timeout returns, even if nobody has requested the call before. (The claim without the assumption about workers is false: a worker that waits in addr.get() does nothing else, so for every number n of workers there is a state in which all n wait for a call that nobody works on, forever.)", "quantifier": "all infinite executions of any number of processes on any number of shared portals (all interleavings and crash points), all functions that may call, swarm, fetch and wait, all arguments; for the counterexample all numbers of workers; with or without consistency checks", "why_tests_cant": "liveness over infinite executions; a deadlock of the pool appears only when as many calls wait as there are workers", "anchors": ["pythagoras/_070_pure_functions/pure_core_classes.py: PureFn.swarm, PureFnExecutionResultAddr.get, request_execution, ready, execute", "pythagoras/_090_swarming_portals/swarming_portals.py: _background_worker, process_random_execution_request"]}
{"id": "C98", "title": "Workers drain the queue: no request is passed over forever", "statement": "As long as workers go on scanning the requests of a portal, a request for a call that can be executed does not wait forever: eventually the request is gone, or the call has a result, or more than five attempts were made, whatever the number of workers, the iteration order, the random choices and the interleaving with other workers and clients (for finitely many different calls, none of which makes the check raise an exception); if the call was not attempted before, its runs return, nobody withdraws the request and no client calls it meanwhile, then it gets its result; and w workers execute one call at most 5 + w times. (Without the restriction to finitely many different calls the claim is false: a worker considers at most 5001 candidates, so with more than 5000 other requests before it in the iteration order a request is never even looked at, although every call returns and the worker never stops.)", "quantifier": "all infinite executions of any number of workers and clients, look by look, all iteration orders, random numbers, kills while a call runs, and clocks; for the counterexample all sequences of random numbers", "why_tests_cant": "liveness over infinite executions; starvation shows only on queues that never shrink below 5000", "anchors": ["pythagoras/_090_swarming_portals/swarming_portals.py: _process_random_execution_request, _background_worker", "pythagoras/_070_pure_functions/pure_core_classes.py: PureFnExecutionResultAddr.needs_execution, can_be_executed, execute, PureFn.execute"]}
{"id": "C99", "title": "Consistency checks among concurrent processes: no false alarms, no unnoticed difference", "statement": "Whatever p_consistency_checks is in the various processes, and whatever they do concurrently: an operation ends with a failed consistency check only if a call it deals with really has two different values; so if functions are pure no check ever fails, in a client or in a worker. Every reply that an operation gives is one that simply evaluating it can give. If p_consistency_checks = 1 in a process, then even for functions that are not pure every value it gets as the result of a call is the result that is stored for this call in the portal of the operation, or was stored there at an earlier time of the same execution; and f(**kw) and addr.execute() then really run the code of the call each time, even if its result is known. (Without checks the last claim is false: if two processes race, the later one returns its own value, which is never stored anywhere as the result.)", "quantifier": "all functions (pure or not), numbers of processes and portals, settings of p_consistency_checks and random numbers, interleavings access by access, and crash points", "why_tests_cant": "checks take place at random and differences show only in races between processes; the claim that no check fails needs all interleavings", "anchors": ["pythagoras/_070_pure_functions/pure_core_classes.py: PureFn.execute, PureFnExecutionResultAddr._ready_in_noncurrent_portals", "pythagoras/_800_persidict_extensions/first_entry_dict.py: FirstEntryDict.__setitem__"]}
{"id": "C100", "title": "Stored autonomous functions", "statement": "An autonomous function can be stored like any value, which changes nothing in the session. What was stored can be read in every other session and portal whose island has no function of that name: this registers exactly the stored source and decorator and affects no other function. The function read can be executed (as it could where it was stored). Where the island has a function of that name, reading works exactly if that function is the same one. (False of the code: what the function depends on is not stored with it, so it runs only where the functions it uses are declared too; and a function stored before its first execution cannot be read after it in the same session, because the execution changes its decorator. Proved: the exact conditions.)", "quantifier": "all functions, sessions (histories of declarations, executions, storing and reading), islands, and later declarations", "why_tests_cant": "the outcome depends on everything registered in both sessions before", "anchors": ["pythagoras/_060_autonomous_functions/autonomous_core_classes.py: AutonomousFn.__getstate__, __setstate__, _begin_fn_registration, _complete_fn_registration"]}
{"id": "C101", "title": "Copies of addresses and functions", "statement": "Copying an address, call signature or function with copy.copy or copy.deepcopy gives an object with the same data, equal to the original, and bound to the same portal; portals and ordinary functions refuse to be copied. (False of the code: only copy.copy of a value address keeps the portal. Every other copy is bound to the portal current at that moment, with everything inside it for deep copies; outside of all blocks the deep copy of a value address has no portal and never gets one. Proved: exactly this.)", "quantifier": "all objects (nested in any way), portals, contexts (histories of entering and leaving blocks)", "why_tests_cant": "every context and every nesting of objects", "anchors": ["pythagoras/_010_basic_portals/portal_aware_classes.py: PortalAwareClass.__copy__, capture_portal", "pythagoras/_030_data_portals/value_addresses.py: ValueAddr.__copy__, __setstate__"]}
{"id": "C102", "title": "Portals and ordinary functions never get into a store; what is read is bound to the portal it is read from", "statement": "Storing an object is refused exactly if there is a portal or an ordinary (or safe) function anywhere in it, and then nothing is changed. Whatever a program does, everything in a store is the pickled form of an object the program stored, under its own hash. An object stored in a portal can be read from an address of that portal at any later time in any context, has the same data, and everything inside is bound to that portal. An address of a portal that does not have the object reads it from the first other portal, in the order of their creation, that has it; what it gives is bound to that other portal.", "quantifier": "all objects (nested in any way), all histories of entering and leaving portals, storing and reading", "why_tests_cant": "every nesting of objects and every history", "anchors": ["pythagoras/_030_data_portals/value_addresses.py: ValueAddr.__init__, get_from_current_portal, get_from_noncurrent_portals", "pythagoras/_010_basic_portals/foundation.py: BasicPortal.__getstate__", "pythagoras/_040_ordinary_functions/ordinary_core_classes.py: OrdinaryFn.__getstate__"]}
{"id": "C103", "title": "Storage failures around pure calls", "statement": "Whatever accesses to storage fail and whatever exceptions are raised, after a block (with portal, or the call of a pure function) is left, the portals are entered as before, output goes where it went before, and no call counts as running that is over. (False of the code: if the attempt or the output of a call, or the crash record of a portal block, cannot be written, the portal stays entered for good, and on entering also the output stays captured. Proved: it holds if these writes succeed, whatever else fails; what exactly stays if one of them fails; that no later program repairs it; that an enclosing block of another portal can then not be left; and that, whatever fails, what is stored as the output of a call is exactly what was printed during it, including nested calls and its traceback.)", "quantifier": "all programs made of portal blocks, pure calls (nested in any way), try/except, prints, raises and storage accesses, all choices of which accesses fail, all reachable portal contexts", "why_tests_cant": "every point at which storage may fail in every nesting of blocks", "anchors": ["pythagoras/_070_pure_functions/pure_core_classes.py: PureFnExecutionFrame.__enter__, __exit__, register_execution_attempt", "pythagoras/_020_logging_portals/logging_portals.py: LoggingPortal.__exit__, _exception_logger", "pythagoras/_010_basic_portals/foundation.py: BasicPortal.__enter__, __exit__", "pythagoras/_810_output_manipulators/output_capturer.py: OutputCapturer.__exit__"]}
{"id": "C104", "title": "Connecting to a portal makes the program work with it", "statement": "After initialize(dir), connect_to_local_portal(dir) or connect_to_default_portal(), operations that are not told which portal to use take the portal connected to, and it is in working order; without any connection the default portal is created and used. (False of the code in three cases: while a portal is entered - which it is for good after initialize() - connecting has no effect on the portal used; connecting again to a default portal that exists does not bring it back into use; after initialize() it raises. Proved: what holds in all histories, and that these cases fail in all histories.)", "quantifier": "all histories of connections, creation of portals, entering and leaving (also in disorder), clearing, and operations without an explicit portal", "why_tests_cant": "depends on the whole history of portals of the program", "anchors": ["pythagoras/_110_top_level_API/top_level_API.py: initialize, connect_to_local_portal, connect_to_default_portal", "pythagoras/_010_basic_portals/foundation.py: BasicPortal.get_best_portal_to_use, get_most_recently_added_portal, _clear_all", "pythagoras/_100_default_local_portals/default_local_portal.py: DefaultLocalPortal"]}
{"id": "C105", "title": "Failing storage does no lasting harm", "statement": "Accesses to the portals may fail (disk full, share gone, file locked) at any time, in any process, any number of times, and processes may die: still everything that a visible request or result needs is stored; stored values and results stay; a stored or returned result is a value that evaluating the call gives when nothing fails; a request is not lost; f.swarm() that returns has made the request, a call that returns has stored its result; and when storage works again and the processes have been restarted, nothing is found missing and every visible request picked up by a worker is served. (The claim about results is false for functions that catch exceptions of the calls they make: one failing access can leave a wrong result for good.)", "quantifier": "all functions, arguments, portals, histories of any number of processes, with any accesses failing and processes dying anywhere", "why_tests_cant": "failures can hit any access of any process in any interleaving", "anchors": ["pythagoras/_030_data_portals/value_addresses.py: ValueAddr.get, get_from_noncurrent_portals", "pythagoras/_800_persidict_extensions/first_entry_dict.py: FirstEntryDict.__setitem__", "pythagoras/_070_pure_functions/pure_core_classes.py: PureFnExecutionResultAddr.execute, ready, request_execution, drop_execution_request", "pythagoras/_090_swarming_portals/swarming_portals.py: _process_random_execution_request"]}
{"id": "C106", "title": "Failures of others do not disturb a process whose storage works", "statement": "Take any process, started after any history in which accesses to the portals failed and processes died. As long as its own accesses succeed - whatever fails for the other processes meanwhile - no operation of it finds anything missing, its operations return and its programs end with answers that evaluation gives when nothing fails, and a worker serves the request it has picked up. A call swarmed with success gets its correct result if some worker that finds the request works through it without a failure, whatever number of others failed or died over it. The same holds for calls and programs that start other calls and wait for them, if the awaited calls are served in this way, too. (Proved for functions that do not catch exceptions.)", "quantifier": "all functions, arguments, portals, histories and infinite executions of any number of processes, with any accesses of other processes failing and other processes dying anywhere", "why_tests_cant": "failures of other processes can come at any of their accesses, in any interleaving, forever", "anchors": ["pythagoras/_070_pure_functions/pure_core_classes.py: PureFn.execute, swarm, PureFnExecutionResultAddr.execute, ready, request_execution", "pythagoras/_030_data_portals/value_addresses.py: ValueAddr.get", "pythagoras/_800_persidict_extensions/first_entry_dict.py: FirstEntryDict.__setitem__", "pythagoras/_090_swarming_portals/swarming_portals.py: _process_random_execution_request"]}
{"id": "C107", "title": "Changes of code are noticed", "statement": "Two sessions give a pure function the same pickled state, hence the same call addresses and stored results, exactly if they have the same source and decorator for the function itself, each of its guards, and each function of the island it calls directly or through others. So after any change of these no result of the old code is returned, and a change of other functions loses no result.", "quantifier": "all pairs of sessions with any histories of declarations, executions, picklings and restorations, portals, islands, sources and set iteration orders", "why_tests_cant": "ranges over all changes of all functions of an island of any size and over all histories", "anchors": ["pythagoras/_070_pure_functions/pure_core_classes.py: PureFn._complete_fn_registration, __getstate__, _preprocess_guards", "pythagoras/_060_autonomous_functions/autonomous_core_classes.py: AutonomousFn._complete_fn_registration", "pythagoras/_060_autonomous_functions/call_graph_explorer.py: explore_call_graph_deep"]}
{"id": "C108", "title": "Changing objects does no harm", "statement": "A program may change (mutate) the objects that it gave to Pythagoras or got from it, at any time. Still what is stored at an address never changes; every stored result is the value of its function for the contents of its arguments; a call returns the value for the contents that its arguments have at the time of the call, and a new object if the result was stored before; an address made by get_address, swarm or run, and a request served by another process, stand for the contents that the arguments had when they were made; and addr.get() gives what the address stands for. (False of the code: an address object keeps a reference to the object it was made from or has returned, and gives that object with its changed content; the address objects of swarm_list keep the arguments themselves, and execute() computes the function for the changed ones; a function that changes one of two arguments which are the same object, and a guard that changes an argument, leave a wrong result in storage.)", "quantifier": "all programs: any sequence of making and changing objects, making, converting and reading addresses, calls and executions; all functions and guards, also those that look at, change and make objects; all contents", "why_tests_cant": "aliasing errors depend on which of arbitrarily many references is changed between which operations; a test sees one interleaving", "anchors": ["pythagoras/_030_data_portals/value_addresses.py: ValueAddr.__init__, ValueAddr.get", "pythagoras/_070_pure_functions/kw_args.py: SortedKwArgs.pack, unpack", "pythagoras/_070_pure_functions/pure_core_classes.py: PureFn.execute, get_address, swarm_list, can_be_executed, PureFnExecutionResultAddr.__init__, execute, get, arguments, kwargs"]}
{"id": "C109", "title": "Portal blocks in several threads", "statement": "Threads of one program may use `with portal` blocks: in each thread the current portal is that of the innermost block around it in the code of the thread, no block fails because of what other threads do, and when all threads have left their blocks no portal is entered. (False of the code: the lists of entered portals are shared by all threads. With two portals a thread finds the portal of another thread, and cannot leave its own block; even with one portal, entering may raise IndexError or get lost. Proved: it holds if blocks of different threads do not overlap in time, however the steps inside of __enter__ and __exit__ are interleaved with the rest; and, if threads switch only between commands, blocks of one and the same portal may overlap in any way.)", "quantifier": "all numbers of threads, all programs of nested and consecutive blocks in each thread, all schedules of the single list accesses", "why_tests_cant": "races between threads depend on the schedule; there are infinitely many programs and schedules, and a test shows one of them", "anchors": ["pythagoras/_010_basic_portals/foundation.py: BasicPortal.__enter__, __exit__, entered_portals_stack, entered_portals_counters_stack, get_most_recently_entered_portal"]}
{"id": "C110", "title": "Keywords of a call and dictionaries", "statement": "A dictionary with any keys and values, converted to the keywords of a call and back, is the same dictionary in the same order. Keywords can be converted to a dictionary exactly if all their values are literals, otherwise ValueError is raised; a key gets the literal value of the last keyword with its name, the keys are in the order of their first keywords, and no other keys appear.", "quantifier": "all dictionaries, all lists of keywords with arbitrarily nested value expressions", "why_tests_cant": "infinitely many dictionaries and nested expressions", "anchors": ["pythagoras/_070_pure_functions/astkeywords_dict_convertors.py: convert_astkeywords_to_dict, convert_dict_to_astkeywords"]}
{"id": "C111", "title": "Node signatures tell nodes apart", "statement": "The signature of a node is the same in every process of the same user on the same computer, and two nodes whose descriptions (hardware address, system, release, version, machine, processor, user) differ have different signatures, unless the hasher confuses their texts. (True if the descriptions differ in exactly one point, or if the hardware addresses differ and both systems have names not beginning with a digit; false in general, because the parts of the description are joined without separators.)", "quantifier": "all pairs of node descriptions, all hashers", "why_tests_cant": "infinitely many node descriptions; a test sees one computer", "anchors": ["pythagoras/_820_strings_signatures_converters/node_signatures.py: get_node_signature"]}
{"id": "C112", "title": "Typed retrieval returns only values of the expected type", "statement": "Getting a value with an expected type returns exactly what getting it without one returns if that has the expected type; otherwise AssertionError is raised and the value remains available; a value that cannot be found raises the same exception as getting it without a type.", "quantifier": "all values, all types, all histories of a session before and after", "why_tests_cant": "infinitely many values, types and histories", "anchors": ["pythagoras/_030_data_portals/value_addresses.py: ValueAddr.get_typed, ValueAddr.get"]}
{"id": "C113", "title": "Capturing output in several threads", "statement": "Whatever several threads of a process do with output capturers, the original streams receive exactly what they would have received without capturing, and a captured text consists only of pieces that were said, each at most once, in order. If the blocks of all threads are nested, every block captures exactly what is said while it is open, and stdout, stderr and the log handlers are put back. (Blocks that overlap without being nested lose output and leave stdout redirected; a captured text also contains what other threads say.)", "quantifier": "all schedules of all threads, all numbers of capturers, all texts and exceptions, all initial streams and handlers", "why_tests_cant": "infinitely many interleavings; a test sees a few of them", "anchors": ["pythagoras/_810_output_manipulators/output_capturer.py: OutputCapturer", "pythagoras/_070_pure_functions/pure_core_classes.py: PureFnExecutionFrame"]}
{"id": "C114", "title": "Signatures almost never coincide", "statement": "Among k random signatures (of executions, events, sessions), drawn by any number of processes, two are equal in at most the part k(k-1)/2 * 1082401/2^122 of all outcomes. Among k objects of any classes and sizes, two get the same address in at most the part k(k-1)/2 * 2^151/2^256 of all outcomes, if their digests are independent and random. (It is possible, though.)", "quantifier": "all numbers of drawings, all classes and sizes of objects, all outcomes", "why_tests_cant": "a statement about the number of outcomes in a space of 2^122 (2^256) equally likely ones for each drawing", "anchors": ["pythagoras/_820_strings_signatures_converters/random_signatures.py: get_random_signature", "pythagoras/_820_strings_signatures_converters/hash_signatures.py: get_hash_signature", "pythagoras/_030_data_portals/hash_addresses.py: HashAddr"]}
{"id": "C115", "title": "Exceptions of a pure function that several threads execute", "statement": "Whatever several threads of a process do with one pure function: recording never breaks, each exception that leaves the function's code is recorded once with a name of its own under some execution of the function, and when all executions have ended the next ones are recorded correctly. If the executions of the function are nested (one thread alone, recursion, a lock), each exception is filed under the execution in which it occurred. (Otherwise it is filed under the execution that was begun last.)", "quantifier": "all schedules of all threads, all calls, sessions and exceptions", "why_tests_cant": "infinitely many interleavings; a test sees a few of them", "anchors": ["pythagoras/_070_pure_functions/pure_core_classes.py: PureFn.call_stack, PureFn._exception_id, PureFn._persist_exception_information, PureFnExecutionFrame"]}
{"id": "C116", "title": "How probably differing values get noticed", "statement": "For a write-once dictionary with consistency-check probability p: in any history of assignments of which w give a key another value than the first one it got, the probability that all of them go unnoticed is at most (1 - p)^w, and exactly (1 - p)^w if p is a number that the random generator can return (or 1). An assignment that gives no differing value is never complained about, whatever the random numbers are. With p = 1 every differing value is noticed, with p = 0 or None none is.", "quantifier": "all dictionaries, all probabilities, all finite histories of assignments, all outcomes of the random numbers (each of the 2^53 outcomes of random.random() equally likely)", "why_tests_cant": "a probability over 2^53n outcomes; a test samples few of them", "anchors": ["pythagoras/_800_persidict_extensions/first_entry_dict.py: FirstEntryDict.__setitem__"]}
{"id": "C117", "title": "A worker chooses each waiting request with probability 1", "statement": "Let a worker scan the requests of a portal again and again, and let everything but its random numbers be in the hands of an adversary who knows the random numbers drawn so far: other requests that come and go, the order in which requests are seen, the time, what other processes do, how executions end. If every scan sees a certain request that needs execution and can be executed, does not fail, and sees at most m such requests, then r scans pass without an execution of it with probability at most (1 - 1/m)^r if m is at most 201, and at most (1 - (5001 - max(200, m-1))/4801/m)^r if m is at most 5001; so it is executed with probability 1. (With more than 5001 at a time it may never be looked at: C98.)", "quantifier": "all adversaries, all numbers of scans, all outcomes of the random numbers", "why_tests_cant": "a probability over infinitely many histories and adversaries", "anchors": ["pythagoras/_090_swarming_portals/swarming_portals.py: _process_random_execution_request, _background_worker"]}
{"id": "C118", "title": "Memoization: each call of a deterministic program is executed at most once", "statement": "Let calls of a deterministic program be made one after another in a portal whose consistency checks are off, each of them ending with a value or an exception, whatever is already cached anywhere. For every call g(**vals) whose code returns a value - a call made by the user or one made by the code of other calls, at any depth and any number of times - its code is executed at most once, and at most one attempt is made to execute it; neither happens if its result was stored before; and if an attempt was made, the result is stored at the end. So a recursive function with exponentially many nested calls runs once per different argument. Without these restrictions, for all programs and all operations (calls in any portals, batches, executions through addresses, other processes): no code of a pure function is ever executed without an attempt in the run history of just that call.", "quantifier": "all deterministic programs, all sequences of ending calls, all consistent caches, all nesting depths", "why_tests_cant": "holds for all programs and call trees; needs that no nested call of a running call is the same call and that failing calls do not spoil it", "anchors": ["pythagoras/_070_pure_functions/pure_core_classes.py: PureFn.execute, PureFnExecutionFrame, PureFnExecutionResultAddr.ready"]}
