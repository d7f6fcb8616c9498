{
 "C09": {
  "note": "proved as stated: same value, every interleaving and I/O failure; late writers; that different values can overwrite each other is shown by C09_concurrent_different_values_counterexample",
  "status": "proved"
 },
 "C18": {
  "note": "the unrestricted claim is false of the code (a value held only by the current portal is missed when the address is bound to another one, C18_current_portal_counterexample); proved: values held by the address's portal or a noncurrent one are found, and exactly what happens when none holds it"
 },
 "C19": {
  "note": "the unrestricted claim is false of the code for addresses converted from unchecked ones (C19_converted_unchecked_counterexample); proved for all other addresses"
 },
 "C30": {
  "note": "the unrestricted claim is false of the code when a call is executed through its address (C30_counterexample: guards get value addresses); proved for calls with plain arguments"
 },
 "C38": {
  "note": "the unrestricted claim is false of the code under concurrency and crashes (C38_counterexample); proved: a settled call never becomes requested again, and a call with a result is never executed again by a worker"
 },
 "C46": {
  "note": "the unrestricted claim is false of the code for the syntax listed, one counterexample theorem each; proved: the exact set of reported names for every function (C46_reported_iff_partial) and acceptance for plain parameters with binding before use"
 },
 "C48": {
  "note": "proved as stated: the exact condition (iff) under which a second registration succeeds, before and after execution; C48_executed_function_counterexample shows that the condition is needed",
  "status": "proved"
 },
 "C49": {
  "note": "the unrestricted claim is false of the code (C49_executed_dependency_counterexample); proved: equal islands give equal augmented sources, decorators of pure and strict functions are fixed, history-independence without loosely autonomous functions"
 },
 "C50": {
  "note": "the unrestricted claim is false of the code for second objects of one function and for executions that come too early (counterexamples); proved for all programs in which every function has one object"
 },
 "C51": {
  "note": "the unrestricted claim is false of the code for guards (counterexamples); proved: the exact condition (iff) under which a stored function can be restored where nothing is known, what restoring yields, and that conflicting versions are refused"
 },
 "C52": {
  "note": "the unrestricted claim is false of the code when the island grows after the first completion (C52_frozen_dependencies_counterexample); proved: exact contents and order of the augmented source at the first completion and after it, independence of the order of guards"
 },
 "C58": {
  "note": "the unrestricted claim is false of the code (fallback lookups and blocks inside an except clause, counterexamples); proved: which operations log nothing, and the origin of every record"
 },
 "C59": {
  "note": "the unrestricted claim is false of the code for an event id used twice on one day (C59_repeated_id_counterexample); proved for all other events"
 },
 "C60": {
  "note": "the unrestricted claim is false of the code outside notebooks (hook lost, never restored: counterexamples); proved for notebooks, and that the hook is installed once while portals exist"
 },
 "C61": {
  "note": "captured text: proved; that the originals get the same text is false for log messages below a handler's level and for warnings without a handler (counterexamples), proved otherwise"
 },
 "C62": {
  "note": "restoring streams and handlers: proved; silence while suppressing is false for log handlers that exist already, and a capturer restores the streams of its creation time (counterexamples)"
 },
 "C66": {
  "note": "the unrestricted claim is false of the code after `initialize` and after a failed first initialisation (counterexamples); proved: always one instance, initialised once otherwise"
 },
 "C68": {
  "note": "the unrestricted claim is false of the code if the body clears the portals itself, the constructor raises, or a tester is not entered (C68_stuck_counterexample); proved: no nesting, isolation otherwise"
 },
 "C70": {
  "note": "the unrestricted claim is false of the code (blank lines in multi-line literals are removed, C70_blank_lines_in_literals_counterexample); proved: all other text reaches the parser unchanged"
 },
 "C71": {
  "note": "the unrestricted claim is false of the code for bare decorator names (C71_decorator_names_counterexample); proved for all other names, and that library names are hidden"
 },
 "C72": {
  "note": "the unrestricted claim is false of the code if checking one request raises (C72_poison_counterexample); proved otherwise: only candidates are executed, each can be chosen, nothing changes when there is none"
 },
 "C74": {
  "note": "proved: the exact condition (iff) under which the cleanup is registered, and that it then removes all records; the unrestricted claim is false of the code if the first portal is not a swarming portal (C74_first_portal_counterexample)"
 },
 "C75": {
  "note": "proved: exactly when a constructor succeeds and what it leaves; clearing works for all programs with valid constructions; the unrestricted claim is false of the code after a failed construction (counterexamples)"
 },
 "C76": {
  "note": "proved for notebooks, and that exceptions are shown in both; the record is missing in scripts (C76_script_counterexample)"
 },
 "C77": {
  "note": "proved: exactly which functions share a path (iff) and what is recorded under safe names; the unrestricted claim is false of the code for shared paths and unsafe characters (counterexamples)"
 },
 "C78": {
  "note": "proved for bodies of all functions and for pure functions; false for autonomous functions that cannot be completed (C78_reason_hidden_counterexample)"
 },
 "C79": {
  "note": "proved for sources that define their name once, without type parameters; false for the others (counterexamples)"
 },
 "C80": {
  "note": "proved: the round trip holds exactly (iff) for plain island names; false for the others (C80_names_with_escapes_counterexample)"
 },
 "C81": {
  "note": "proved for portals of class SwarmingPortal; the workers of DefaultLocalPortal do nothing (C81_default_portal_counterexample)"
 },
 "C84": {
  "note": "Proved for returned values; the statement for address objects is false, shown by two general counterexamples (every reached state)."
 },
 "C85": {
  "note": "proved: equivalence with portal-free Python for portals that write logs and have different directories, and the exact condition (iff) for one block and for one event; the unrestricted claim is false of the code (two general counterexamples)"
 },
 "C86": {
  "note": "proved: ordinary/safe over anything (exact condition), pure over pure (same operation as decorating the source), autonomous over autonomous (same function, runs exactly when the original runs); the unrestricted claim is false of the code (three general counterexamples)"
 },
 "C87": {
  "note": "proved: exact condition for function objects and for objects of every kind (C87_objects_iff), refusal of every other kind of object and of functions without source; false of the code for functools.wraps wrappers and for sources given as text (general counterexamples), and @safe() never works as a decorator (C87_safe_counterexample)"
 },
 "C88": {
  "note": "Proved for any number of portals and processes: everything a request or result needs is in its own portal if address objects do not travel between portals (or there is one portal), else in some portal; no lookup ever fails unless address objects travel to processes that do not know all portals. Missing: completeness within each portal when address objects travel — false of the code (two counterexamples: crash while a result is copied; address argument unpickled elsewhere)."
 },
 "C89": {
  "note": "Proved for any number of portals and processes, interleaved access by access, with crashes: stored and returned results are outcomes of evaluating the call; unique, hence equal in all portals and unchanging, when outcomes are unique, in particular for functions that compute, call, store, fetch, swarm and wait but do not look whether something is ready. Missing: address objects must stay with their portals or every process must know all portals; stability for code that looks at the state is false (counterexample)."
 },
 "C90": {
  "note": "Proved for any number of portals and processes, interleaved access by access, with crashes: workers, operations and programs finish after finitely many own steps whatever the others do, with an outcome of the evaluation, or with a failed consistency check if a call has two values. Conditions: the evaluation comes to an end whatever answers it gets (Halts), code uses only address objects it has obtained (Lawful). Missing: address objects must stay with their portals or every process must know all portals (otherwise false, C88); waiting in get() without timeout is C97; that a worker ever picks a given request is left to chance in the code (random choice) and not claimed."
 },
 "C91": {
  "note": "Proved: what the own portal holds is found whatever other portals exist; exactly when a lookup is refused because of another portal's class; an additional empty portal of a sufficient class changes nothing. Missing: additional portals of an insufficient class — false of the code (two counterexamples)."
 },
 "C93": {
  "note": "Proved for any number of portals and processes, interleaved access by access, with crashes, from C90 and C92, under the stated fairness assumption (workers choose requests at random, so that a given one is ever chosen is a matter of probability and is assumed). Missing: address objects must stay with their portals or every process must know all portals (otherwise false, C88)."
 },
 "C95": {
  "note": "proved: what holds after normal returns, and exactly (iff) when the functions return normally; that the running program sees the new state is false of the code (modules loaded before: two general counterexamples; a module with another name than its package: one)"
 },
 "C97": {
  "note": "Proved for any number of portals and processes, interleaved access by access, with crashes, under fairness for all awaited calls; the claim without it is false (counterexample for every number of workers). Missing: address objects must stay with their portals or every process must know all portals (otherwise false, C88); the length of sleeps is not modelled here (C34, C35)."
 },
 "C98": {
  "note": "proved as stated, for finitely many different calls whose check raises no exception (any number of workers and clients, every look a step of its own); for endless inflow the claim is false of the code (C98_starvation_counterexample, for all random numbers), for raising checks C72 shows that it is. Bound 5 + w on executions proved for all histories.",
  "status": "proved"
 },
 "C99": {
  "note": "Proved for any number of portals and processes, interleaved access by access, with crashes and random checks. The theorems about p_consistency_checks = 1 are unconditional. Missing in the others: address objects must stay with their portals or every process must know all portals (otherwise false, C88). The claim about stored values without checks is false (counterexample)."
 },
 "C100": {
  "note": "proved: storing and reading (C100_stored, C100_loaded), the exact conditions for executing what was read and for reading where the function is known, and that strictly autonomous functions run everywhere; the unrestricted claim is false of the code (two counterexamples)"
 },
 "C101": {
  "note": "partial because the full claim (a copy is bound like the original) is false of the code: counterexamples C101_other_portal_counterexample, C101_deep_copy_outside_counterexample; the exact behaviour of every copy is proved"
 },
 "C103": {
  "note": "the unrestricted claim is false of the code (C103_counterexample); proved: blocks restore everything if the records of frames and the crash records of portals can be written, whatever else fails (C103_restored_partial), and exactly what stays entered, captured and on the stack when one of these writes fails; for all programs and all failures: the stored output of a call is exactly what was printed during it, nested calls and traceback included (C103_output_complete), and capturers in force get everything printed (C103_captured)"
 },
 "C104": {
  "note": "the claim is false while a portal is entered, for an existing default portal, and for the default portal after initialize(): proved for all histories as counterexamples; the positive part is proved for all histories outside of blocks"
 },
 "C105": {
  "note": "the claim about results is false of the code for functions that catch exceptions of nested calls (C105_caught_exceptions_counterexample); proved for all others, and everything else (completeness, nothing lost, nothing broken afterwards) without that restriction on reachable states"
 },
 "C106": {
  "note": "proved for functions that do not catch exceptions of nested calls (else a failure elsewhere can leave a wrong result, C105_caught_exceptions_counterexample); waiting in addr.get() without a timeout under the fairness assumption of C97 for the awaited calls (without it: C97_all_workers_wait_counterexample)"
 },
 "C107": {
  "note": "first pickling in each session: exact (iff). In general false of the code: functions executed or pickled before something they reach was declared, and guards given by name that use other functions, give equal addresses for different code (counterexamples proved)"
 },
 "C108": {
  "note": "what is stored: proved without conditions. What calls and addresses return: proved for functions that do not change arguments which can have another name (a function of one argument may change it) and guards that change nothing; false of the code otherwise, and false for address objects that keep a reference to a changed object (six counterexamples proved)"
 },
 "C109": {
  "note": "false of the code without a lock (three counterexamples proved: another thread's portal is found and a block cannot be left; entering one and the same portal raises IndexError; a lost entering); proved at the granularity of single list accesses if blocks of different threads do not overlap, and for overlapping blocks of one portal if threads switch only between whole commands"
 },
 "C111": {
  "note": "proved: exact condition for equal signatures, different signatures for one difference and for different hardware addresses with named systems; the unrestricted claim is false of the code (C111_no_separators_counterexample, C111_computers_counterexample)"
 },
 "C113": {
  "note": "proved as stated: for all schedules original streams, no invented output; restoration and exact capture for nested blocks; the counterexamples show that nesting is needed and that captured text includes other threads' output",
  "status": "proved"
 },
 "C115": {
  "note": "proved as stated: for all schedules the list stays in step, every failure is recorded once under some execution, names are unique, no lasting harm; the right execution for nested schedules (one thread, recursion, a lock); C115_crossing_counterexample shows that nesting is needed",
  "status": "proved"
 },
 "C116": {
  "note": "proved: exact number of unnoticed outcomes, probability bound and equality, no false alarms, the extreme cases; counted over all outcomes of random.random() (2^53 equally likely numbers), storage without failures"
 },
 "C117": {
  "note": "proved for all adversaries; random.randint and random.choice taken as uniform and independent. This justifies the fairness assumption of C93 and C97 for queues with at most 5001 candidates at a time"
 },
 "C118": {
  "note": "one process, arguments are plain values (as in all nested calls of the model), consistency checks off, different data have different hashes; that executions are attempts is proved without the first three restrictions"
 }
}