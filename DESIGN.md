# Formal model of Pythagoras in Lean 4 - design

## 1. Layout

* `lean/Verif/Model/*`  - executable model of the Python code, one definition per function (or a few
  per function), each with a comment giving file and lines in `/repo` and the simplifications made.
* `lean/Verif/Spec/*`   - small, model-independent specifications (plain stacks, reachability,
  reference evaluation of programs, reading-order semantics of names, ...).  Where the specification is
  a one-liner it is written directly into the theorem statement.
* `lean/Verif/Proofs/*` - helper lemmas and invariants.
* `lean/Verif/Props/*`  - the property theorems (`Cnn_...`) and beside each one an `example` showing
  that a concrete non-trivial case meets its hypotheses; disproved properties appear as
  `Cnn_..._counterexample` with a concrete witness, together with a `..._partial` positive theorem.
* `lean/Verif/Examples/*` - a larger concrete session used by several examples.
* `properties.jsonl` - the English properties; `MANIFEST.json` - property -> theorem names (generated
  by `tools/manifest.py`, notes in `tools/notes.json`).
* `seeded/LOG.jsonl` - mutation experiments against the theorems.

## 2. Trusted base

* Lean 4.33.0's kernel (all proof terms are checked by it), and the three standard axioms `propext`,
  `Classical.choice`, `Quot.sound`.  No axiom is declared in this project, there is no unfinished
  proof, and nothing is evaluated by compiled code (concrete evaluations use `decide +kernel`, i.e.
  kernel reduction).  Section 6 gives the axioms of each property theorem.
* That the definitions in `Model/` describe the Python code.  This is a translation by hand; each
  definition cites the lines it renders and states its simplifications.  Mutation testing
  (`seeded/LOG.jsonl`) checks that the theorems are sensitive to realistic errors in it.
* That the theorem statements say what the English properties say (they are written over the model's
  API-level functions and the specifications in `Spec/`).

## 3. Modelling conventions

* Python exceptions are values: stateful code is `state -> Except Exc a x state` (`PyM`, the state
  survives the exception).  `with p: body` is `enter; try body; exit` where exit runs on both paths.
* Portals are object identities (`Nat`); dictionaries are association lists with the insertion
  order of Python dicts, or total functions to `Option`; sets whose iteration order is unspecified are
  lists with an *arbitrary* order over which theorems quantify.
* Randomness, clock readings and hash digests are oracles: arbitrary functions/streams supplied as
  parameters, universally quantified in the theorems.
* Unbounded `Nat`/`Int`; exact rationals instead of floats (C08, C28, C34, C35).
* Loops with data-dependent termination take fuel, plus a theorem that a sufficient amount of
  fuel exists (C04, C41, C63), or fuel plays the role of Python's recursion limit (C23 etc.; running out
  of fuel is an outcome of its own which no handler catches).

## 4. What is modelled, file by file

| repository file | model | what is left out |
|---|---|---|
| `_010_basic_portals/foundation.py` | `PortalStack` (enter/exit/exit_all, best portal, lists), `Threads` (blocks in several threads), `Lifecycle` (`_clear_all`), `Construct` (constructors, clearing, end of program, for all classes), `SharedDirs` (portals that share a directory, portals without logs), `Describe` | - |
| `_010_basic_portals/portal_aware_classes.py` | `PortalAware` | - |
| `_010_basic_portals/portal_tester.py`, `_100_default_local_portals/` | `Lifecycle` | - |
| `_020_logging_portals/logging_portals.py` | `World` (exception logger, marks, `__exit__`), `Events` (events, unique names, hooks), `Uncaught` (uncaught exceptions), `CrashPath` (paths of crash records) | contents of the environment summary, traceback texts |
| `_030_data_portals/value_addresses.py`, `hash_addresses.py` | `ValueAddr`, `HashAddr` | other file types, `__repr__` |
| `_030_data_portals/data_portals.py` | value stores in `World` (with `FirstEntry`), portals of different classes in `Mixed`, objects that are changed in `Mutable` | - |
| `_050_safe_functions/*` | `Wrap`, `CrashPath`, `Packages` (installing and uninstalling) | `pip` and `importlib` from their documentation |
| `_040_ordinary_functions/code_normalizer_implementation.py`, `function_name.py`, `assert_ordinarity.py`, `check_n_positional_args.py` | `SourceText`, `Normalizer`, `Ordinarity` (which callables are accepted) | `ast.parse`, `ast.unparse`, `autopep8` are parameters; `inspect.getsource` |
| `_040_ordinary_functions/ordinary_core_classes.py` | `PureFn` (execution), `Registry` (update), `Wrap` (function objects decorated again), `ErrReport` (exceptions the caller gets), `ExecText` (the executed text) | compilation |
| `_060_autonomous_functions/names_usage_analyzer.py` | `Analyzer` | parsing |
| `_060_autonomous_functions/call_graph_explorer.py` | `CallGraph` | - |
| `_060_autonomous_functions/autonomous_core_classes.py`, `autonomicity_checks.py`, `purity_checks.py` | `Registry`, `PureFn` (`autExec`), `Namespace` (names of executed code), `Checks` (kinds of functions) | - |
| `_070_pure_functions/kw_args.py`, `pure_core_classes.py` | `PureFn`, `PureHistory`, `Grid`, `Waiting`, `Retry`, `Registry`, `RunRecords` (execution records), `AddrInfo` (attributes of addresses, addresses as arguments and results), `FrameFail` (failing writes around a call), `FrameThreads` (the call stack of a function in several threads) | `logs`, S3 |
| `_070_pure_functions/process_augmented_func_src.py`, `astkeywords_dict_convertors.py` | `Registry.process`, `DecoText` (printing and reading decorators), `AstKeywords` (keywords ↔ dictionary) | parsing of function definitions |
| `_090_swarming_portals/swarming_portals.py` | `Swarm`, `SwarmParts` (a call taken apart into its stored pieces), `Faults` (accesses that fail), `Workers`, `WorkerScan` (choice of a request), `Drain` (many scans at once), `ProcessTree` (processes and their parameters), `Describe` | the library `parameterizable` |
| `_800_persidict_extensions/*` | `FirstEntry`, `MultiDict` | - |
| `_810_output_manipulators/*` | `Output`, `OutThreads` (several threads; they switch only between whole commands) | flushing, closing of devnull |
| `_820_strings_signatures_converters/*` | `Base32` (probability of equal signatures: C114), `Dates`, `NodeSig` (what `uuid`, `platform`, `getpass` report is its input) | the digest function (C114: idealized as random) |
| `_110_top_level_API` | `initialize` in `Lifecycle`, `connect_*` in `Connect`, `Describe` | – |

Not modelled at all: CPython itself, the packages `persidict` (taken as: a dictionary keyed by string
chains; single-key read / write / delete atomic; key order arbitrary; an immutable dictionary refuses to
overwrite), `joblib` (hashing), `DeepDiff` (taken as equality), `sklearn.ParameterGrid` (modelled from its
documentation), pickle (identity on values except the `__getstate__`/`__setstate__` shown), notebooks,
pandas output, S3 back ends.

## 5. Assumptions to keep in mind when reading the theorems

* C14-C19, C20-C33: "no two stored values share an address" is the hypothesis `Function.Injective addrOf`
  (or a weaker form for the values concerned).  C12/C13 state what an address reveals on the level of text.
* `random.random()` returns a number below 1 (C08 with probability 1, C28, C99).
* Within one operation of a session no other process interferes, except in `FirstEntry` (C09), `Swarm`
  (C36-C38), `Workers` (C39), `SwarmParts` (C88-C93, C97, C99) and `Drain` (C98), where the steps of all processes are interleaved arbitrarily; between
  operations of a session other processes may store values, results and requests (`PureHistory`).
* C23-C28: function bodies are programs over return, raise, nested calls (with or without catching),
  print and random draws, as continuations of arbitrary Lean functions, i.e. every computation that
  interacts with the library only through these. "Deterministic" = no draws.
* An address of a call *result* passed as an argument: only in `AddrInfo` (C82-C84) and `SwarmParts` (C88-C93, C97, C99).
* C34: rational time, the clock does not run backwards, start time > 0.
* C42-C46: the specification reads a syntax tree in the order of `ast._fields` (the order of visiting).
* C47-C52: see the list of simplifications at the head of `Model/Registry.lean`.
* C53, C54: equality of normalised *trees* is the specification; printing is a parameter and the
  round-trip theorems assume that parsing a printed tree gives it back.
* C56, C58: crash histories are counted from the start of the session.
* C61, C62: a log record reaches the handlers after the logger's level filter was applied.
* C64: the calendar date of a moment is modelled by counting days, not by CPython's arithmetic.
* C65: the file layout of `FileDirDict` is taken from persidict's documentation.

## 6. Axioms

Every property theorem depends on a subset of `propext`, `Classical.choice`, `Quot.sound`;
`AXIOMS.md` lists the axioms of each of them (output of `#print axioms`, generated by `tools/axioms.py`).

## 7. Per-property plan

| id | what is modelled | how proved |
|----|------------------|-----------|
| C01 | enter/exit on stack+counter lists, programs of nested blocks with raise/try/new portal | induction over programs, both outcomes |
| C02 | `_most_recently_entered_portal`, `get_best_portal_to_use` | refinement to plain stack, case analysis |
| C03 | `__exit__` | invariant + case analysis, error branch explicit |
| C04 | `__exit_all__` loop with fuel | measure = sum of counters |
| C05 | `_entered_portals`, `_noncurrent_portals` | dict-insertion model vs. spec by membership/order |
| C06 | whole enter/exit API | refinement (run-length abstraction) to `List` of enter events |
| C07, C08 | `FirstEntryDict.__setitem__` incl. counters and retry branch | induction on operation lists |
| C09 | `__setitem__` as small steps of many writers | invariant over all interleavings; counterexample trace for different values |
| C10 | conversion functions on `List Char` digits | induction, digit lists |
| C11 | truncation to 22 | from C10, prefix algebra |
| C12, C13 | `_build_prefix`, `_build_hash_signature` on characters | unique-decoding lemmas |
| C14-C19 | world of portals with value stores, address objects with caches, `with` semantics incl. logging | preservation lemmas for a state relation, invariant `store[a]=v -> addr v = a`; counterexamples by evaluation |
| C20-C22 | `SortedKwArgs`, `ValueAddr` of arguments | sortedness uniqueness, idempotence of pack |
| C23-C31 | `PureFn.execute` and frames over free-monad bodies | big-step reference semantics, induction on fuel / on programs |
| C32 | swarm_list/run_list with arbitrary shuffles | induction over lists, permutation-invariance |
| C33 | sklearn `ParameterGrid` iteration (external, modelled from its documentation) | list product lemmas |
| C34 | polling loop with rational time and jitter oracle | induction on polls |
| C35 | `needs_execution` decision | case analysis against an independent spec |
| C36-C38 | clients and workers as interleaved small-step processes over a shared store, crashes | inductive invariants over reachable states; counterexample trace |
| C39 | runtime-id register and worker loop | invariant over event histories |
| C40, C41 | call graph functions over an arbitrary reference relation | reachability, termination by cardinality |
| C42-C46 | analyzer visitor over an `ast`-shaped tree in `_fields` order | induction over trees |
| C47-C52 | registry: islands of function objects with registration flags | invariants over histories; counterexamples |
| C53-C55, C67, C70 | AST part of the normalizer; line/indent handling; function names | structural induction; `unparse`/`autopep8` are parameters |
| C56-C60 | logging hooks, `add_note` suppression, event log, exception hook variable | induction over block programs, invariants |
| C61, C62 | tee streams/handlers stack, suppressor | induction over programs with nested captures |
| C63-C66, C68, C69 | small state machines | direct, induction over histories |
| C71 | namespace of executed code: module globals, dependencies, own names | invariant over registration histories, case analysis |
| C72 | scan of the request queue with limit, random order and choice; histories of scans and requests | exact description of a scan (take/filter), induction over histories |
| C76 | the hooks of scripts and notebooks around user programs | lifting of the C56 invariants |
| C77 | paths of crash records as texts, immutable dictionary with safe keys | separator lemmas, induction over crashes |
| C78 | `except` clause of `execute` over the registry of C47-C52 | invariants over histories (complete objects never change) |
| C74, C75 | constructors of all portal classes as stages, clearing, end of the program | invariants over histories of operations; counterexample histories |
| C73 | the four run-time dictionaries of a call, ids as texts, lookup by substring | text lemmas on infixes, induction over events |
| C79 | the executed text as characters, its top-level statements run in a dictionary of names | leftmost-occurrence lemma, induction over statements |
| C80 | decorator texts, Python's string literals, keywords and lists as a reader on characters | induction over names and lists (round trip), length argument (only plain names) |
| C81 | a list of processes, each with its own portal objects (`Construct`), and a step relation | invariant over all reachable states |
| C82 | the attributes of address objects over the states of `PureFn` | specifications of each attribute over an invariant of address objects kept by every session step |
| C83 | `ValueAddr(addr)` for an object with `get_ValueAddr`, and `pack` | the same invariant; the stored signature is found in every later state |
| C84 | the end of `execute` for any kind of returned object | run of the end of a call; two general refutations |
| C85 | log dictionaries per directory, portal objects with directory and class, nested blocks | simulation of portal-free Python for compatible portals; exact (iff) outcome of one block and of one event; general refutations |
| C86 | constructors applied to function objects, on top of `Registry` | the four combinations of classes that work: exact condition and equality with decorating the source; execution of the copy by an exact description of the first completion; general refutations for the others |
| C87 | `assert_ordinarity` over an inductive type of callables (ways of making them), CPython's `inspect` functions on it, followed by the normaliser of C53 | exact condition (iff) for function objects; refusal of all other kinds; general refutations for `functools.wraps` and for source texts |
| C88 | `Model/SwarmParts`: the operations as programs over single dictionary accesses, any number of processes and portals, crashes; `Spec/SwarmParts` | rely/guarantee: a program is `Ok` from a state on if each of its accesses preserves the invariant whatever grows in between; every operation is `Ok`; induction over steps |
| C89 | Model/SwarmParts (same transition system as C88; an operation of code runs in whatever portals its process uses); Spec/SwarmParts `Outcome` is a big-step evaluation without portals or processes | rely/guarantee invariant: every stored result and every returned value is an `Outcome` of the code of its address; outcomes are unique when what code does next does not depend on what others do (`Steady`: it may call, store, fetch, swarm and wait, but not look whether something is ready); counterexample when code looks at the state (Props/SwarmValues) |
| C90 | `Model/SwarmParts` (`Act`, `Step`), `Spec/SwarmLive` (`Will`, `Alive`; `Halts`: evaluation comes to an end, whatever answers it gets; `Lawful`: address objects are used only where they were obtained) | inductive "whatever the others do" predicate; induction over the program of an operation and over the evaluation of the call; infinite executions as a corollary |
| C91 | `Model/Mixed` (portals of several classes, `get_noncurrent_portals` with its class check, `fetch`, `ready`, `call`), `Spec/Mixed` | case analysis of the lookups; frame lemmas for an added empty portal; two counterexamples |
| C92 | `Model/SwarmParts`, `Spec/SwarmKeep` (`Asked`, `CalmSteps`) | assertion on the rest of every operation (`Safe`): every drop comes after a result; invariant over all processes and their stacks |
| C93 | `Model/SwarmParts`, `Spec/SwarmDone` (`Run`, `NeverDropped`, `Served`) | C92 keeps the request until there is a result; if there never is one, fairness gives a worker, and C90 its result |
| C94 | `Model/Describe` (files of directories, tables as lists of rows), `Spec/Describe` (`Counts`, `Pending`, `recorded`, `Shows`) | induction over histories: which files exist; the counted ones are the wanted ones |
| C95 | `Model/Packages` (pip as an arbitrary function, `sys.modules`), `Spec/Packages` (`PipWorks`, `Importable`) | case analysis of the two functions; exact conditions (iff) |
| C96 | `Model/Checks` on top of `Model/Registry` | invariants of registries (C45, C51): completed objects know whether they are strictly autonomous; marks of completed objects are never changed |
| C97 | `Model/SwarmParts` (`Io.wait`, `round`, `pollLoop`), `Spec/SwarmJoin` (`Awaited`, `Among`) | induction over the (possibly waiting) evaluation `Halts`; waiting ends because C92 keeps the awaited request until some worker, by the induction hypothesis, stores its result; counterexample by induction on the number of workers |
| C98 | `Model/Drain` (every look a step), `Spec/Drain` (`Run`, `Working`, `Calls`), `Examples/Drain` (a scheduler) | each call is chosen only finitely often (its attempts grow, or it is over and no new scan collects it), yet every scan that sees a waiting call chooses something; counting of workers that hold a call for the bound; invariant of a scheduler for the counterexample |
| C99 | `Model/SwarmParts` (`Io.toss`, `compare`), `Spec/SwarmParts` (`Answer`, `Concerns`), `Spec/SwarmChecks` (`Exec`: an execution with all its states) | the reply invariant of C88/C89 extended by the answers of evaluation; assertion on the rest of every operation over the history of stored results (`Rec`) and over the code started since the operation began (`Reruns`); concrete race for the counterexample |
| C100 | `Model/Registry` (`pickle`, `restore`, `start`) | `begin_free` of C51 for the registration; exact evaluation of the first execution of a registered autonomous function (`start_first_iff`); reachability invariant |
| C101, C102 | `Model/PortalAware` (`copy`, `deepcopy`, `put`, `get`, `history`) | mutual structural induction over nested objects; induction over histories; the portal stack theorems C02 for the current portal |
| C103 | `Model/FrameFail` (`withM`, `Frame.enter`, `Frame.exit`, programs with marked writes), `Spec/FrameFail` (`Restored`, `StillEntered`) | structural induction over programs; the portal stack theorems of C01 for single blocks; exact evaluation of the failing `__enter__`/`__exit__` |
| C104 | `Model/Connect` (`initializeTo`, `connectLocal`, `connectDefault`, `use`, histories `Cmd`, on top of `Model/Lifecycle`), `Spec/Connect` (`WorksWith`) | every command is a list of the operations of C66, whose invariants (`Inv0`, `DInv`) carry over; invariance of the stack under connecting |
| C105 | `Model/Faults` (`FStep`: a step of `Model/SwarmParts` or a failing access), `Spec/Faults` (`Uncaught`, `FReachable`, `FCalmSteps`) | the invariants of C88 and C92, for outcomes in which operations may fail, are kept by failing accesses; outcomes of functions that do not catch exceptions need no failure (`Outcome.sure`), so that the state after a restart satisfies the strict invariant, from which C88 and C90 follow |
| C106 | `Model/Faults`, `Spec/FaultsLive` (`FWill`, `GoodFor`, `FRun`, `AliveFrom`, `Served`) | the state without the other processes (`only i s`) satisfies the invariant for working storage, the whole state the one for failing storage; the argument of C90 (`Steppable`) then applies to the former, with the interference of failing processes; programs that wait: the argument of C97 (`Course`, `Track` in Proofs/SwarmJoin), for executions with and without failures |
| C107 | `Model/Registry`, `Spec/CodeChange` (`Code`, `Matters`) | augmented sources are the sorted registered sources of guards and reached functions (C52); equal lists have equal names and entries, and reachability depends on the sources of reached functions only; counterexamples by evaluation |
| C108 | `Model/Mutable` (objects with identity and content; address objects with `_value`, `_result`, `_arguments`), `Spec/Mutable` (value semantics `eval`) | running code on separate objects refines the value semantics (induction over code); relation `Later` (what never goes away) and an invariant of the stored results over all programs; counterexamples by evaluation |
| C109 | `Model/Threads` (each list access of `__enter__`/`__exit__` a step; threads with program counters; schedules), `Spec/Threads` (`Prog.views`: which portal each look should find; `Locked`) | invariant: the lists are the run-length encoding of the blocks of the one active thread, in mid-command states too; whole commands = uninterrupted steps; for one portal: the counter is the number of open blocks of all threads; counterexamples by evaluation |
| C110 | `Model/AstKeywords` (expressions, `ast.literal_eval`, the two loops), `Spec/AstKeywords` (`IsLiteral`, `IsDict`) | mutual induction on expressions and lists of them; induction on the keywords |
| C111 | `Model/NodeSig`, `Spec/NodeSig` (description, text, collision) | induction on the list of parts for one difference; the digits of the hardware address are the longest prefix of digits; counterexamples by evaluation |
| C112 | `getTyped` in `Model/ValueAddr` | on top of the invariants of C14 |
| C113 | `Model/OutThreads` (schedules of create, enter, exit, say), `Spec/OutThreads` (nested blocks) | invariant: the current and all remembered streams are towers over the original ones; induction on nesting; counterexamples for every initial state |
| C114 | `Base32.randomSignature`, `HashAddr.address`; `Spec/Birthday` (random bits of uuid4, random digests, relative number of outcomes) | at most 1+32+..+32^J numbers share a signature (leading digits); union bound over pairs of drawings; counting by fibers |
| C115 | `Model/FrameThreads` (one call stack, commands of threads), `Spec/FrameThreads` (each thread's own executions) | invariant: length of the list = sum of the threads' depths; induction on nested schedules; counterexample by evaluation |
| C116 | `Model/FirstEntry` (assignments with their random numbers), `Spec/Noticing` (counting outcomes) | which outcomes return normally is a product set (C07, C08 exact), counted by `Nat.card_pi`; ceiling bound |
| C117 | `Model/WorkerScan` (a scan with its two random numbers), `Spec/Chance` (probability against an adversary, by recursion) | induction on the number of scans; mean of the choices, mean of the limits |
| C118 | `Model/PureFn`, the sequences of calls of `Spec/PureHistory`; attempts counted in the run history | invariant `Once` (each call: no new attempt, or one, and stored or still running) over the program logic `Sp`; a running call cannot call itself, because then the reference semantics would diverge; executions of code against attempts: invariant `Slack`, for whole sessions summed over the portals |

## 8. Findings: behaviours of the code found while proving

Each is either a `_counterexample` theorem or visible in an exact (`iff`) theorem.

1. `ValueAddr.get`/`ready` look for a missing value in all known portals except the *most recently entered*
   one, not except the address's own: a value held only by the current portal is not found (C18).
2. `ValueAddr(addr)` for an address of the same portal marks the new address ready without checking (C19).
3. A fallback lookup logs a crash for the `KeyError` it catches, and a `with portal` block finished normally
   inside an `except` clause logs the exception being handled (C58).
4. Two processes that store different values under one key of a first-entry dictionary can both succeed, and a
   value already read can be replaced (C09).
5. Completing the registration of an autonomous function may flip it to strictly autonomous; decorating it again
   then fails (C48), and the augmented source, hence the address of a pure function that uses it, depends on
   what was executed before (C49).
6. Two handles of one pure function can be pickled with different strictness, giving different call addresses (C49).
7. A second `PureFn` object created before the first completes is marked as fully registered without bytecode: it
   fails with `AttributeError` (C50).  The same for a second `AutonomousFn` completed first.
8. A function executed before its dependency is defined stays strictly autonomous for ever and cannot use it (C50).
9. Dependencies are frozen at the first completion (C52).
10. A pickled pure function cannot be restored in a fresh session if a guard's name sorts after the function's
    name, or if a dependency has guards (C51).  String guards are not checked to be strictly autonomous.
11. Executed through its address, a call passes `ValueAddr` objects instead of values to its guards (C30).
12. `needs_execution` gives up after more than five attempts; the request stays for ever (C35, C38).
13. There is one runtime-id record per node and portal: a second program stops the workers of the first (C39).
14. The old `sys.excepthook` is saved in a local variable and never restored (C60).
15. The default portal object is stale after `BasicPortal._clear_all()`, which `initialize()` calls; and if its
    first initialisation raises, later requests return an uninitialised, unregistered object (C66).
16. The normalizer is not idempotent for two leading string expressions; it crashes on annotated variables
    (`x: int = 1`) and on a bare `@pth.pure` (C54).
17. The normalizer removes blank lines inside multi-line string literals: functions returning different strings
    get the same identity; a less indented continuation line of such a literal raises (C70).
18. The analyzer reports keyword-only, positional-only and lambda parameters, dotted imports, class and match
    bindings, nested recursion and later bindings as external; relative imports raise (C46).
19. The guard methods of `OverlappingMultiDict` are local functions of `__init__` and never installed (C65).
20. `convert_int_to_base32(0) = ''` (C10); `get(timeout=0)` waits at least one second (C34).
21. A self-recursive nondeterministic call may return a value different from the stored one (C25-C27).
22. The event log is immutable: logging the same event id twice on one day raises after some of the entered
    portals have been written (C59).
23. `def f[T](x)` gives the function name `f[T]`, `def<TAB>f` raises (C67).
24. The output capturer ignores the levels of the handlers it forwards to, and with no handlers a warning no longer
    reaches stderr (C61); it restores the streams of its creation time; the suppressor does not touch log
    handlers (C62).
25. A value address unpickled outside of all portal blocks never gets a portal (C69).
26. A portal tester created but never entered, or whose body clears all portals, or whose portal's constructor
    raises, blocks all later testers (C68).
27. An island function named like a builtin: a strictly autonomous function using it completes but cannot run (C45).
28. Bare decorator names (`pure`, `autonomous`, …) count as known names, but are not there when the body runs (C71).
29. If checking one request raises (a function that cannot be restored, C51), no worker of the portal executes anything
    until this request is removed; no attempt is recorded, so it is never given up (C72).
30. The cleanup of runtime ids at exit is registered only if the first known portal is a swarming portal; otherwise the
    workers of a finished program go on for ever (C74).
31. The unfinished object of a failed portal construction stays known as the most recently added portal; after a failed
    construction of a swarming portal, `_clear_all` and `initialize` raise for the rest of the program (C75).
32. `pth_excepthook` calls `sys.exc_info()`, which is empty while `sys.excepthook` runs: in scripts uncaught exceptions
    are not recorded (C76).
33. Paths of crash records join function and island names with `_` and are not unique; unsafe characters in island names
    (only a TODO in the code) make the recording fail, which replaces the original exception (C77).
34. If an autonomous function cannot be completed (e.g. it uses an unknown name), its caller gets an `AttributeError`
    about `_autonomous_fn_dependencies` instead of the reason (C78).
35. A function with type parameters (`def f[T](x)`) cannot be executed: its name is taken to be `f[T]`, and the text that is
    compiled is not Python (C79).
36. Island names are put between quotes without escaping: a function in an island such as `it's` works in the process that
    defines it, but cannot be restored in another one; `c:\temp` or `a' 'b` silently become other islands there, and a name
    can even add arguments to the decorator (C80).
37. The background workers of the default portal never execute anything: they are launched with the portal's class name and
    parameters, but `DefaultLocalPortal.__init__` takes no parameters (and the class is not registered), so each ends with an
    exception (C81).
38. An address of a result passed as an argument (`g(x=f.swarm(…))`) does not stand for the result: `ValueAddr(addr)` takes the address of the call *signature* (`get_ValueAddr`), and `unpack` hands the callee a `PureFnCallSignature` object, whether or not the result is ready (C83).
39. A pure function that returns an address object does not return the same on repeated calls: a returned `ValueAddr` is replaced by the value it points to, a returned result address by a `PureFnCallSignature` object (C84).
40. Two portal objects for the same directory (e.g. `connect_to_local_portal()` called twice, or a portal built twice in a notebook) must not be entered together: the first exception that leaves the inner block is replaced by the `immutable_items` error of the shared crash history (each record is written once per portal object under the same key), `__exit__` raises before it pops the portal, and both portals stay entered for the rest of the session; `log_event` fails for the same reason (C85). The same happens, with an `AssertionError`, when a plain `BasicPortal` is entered.
41. Decorating a function object again works only within one class. `@autonomous` or `@pure` over `@ordinary`/`@safe`, and `@pure` over `@autonomous`, raise an `AttributeError` from `update` (although the constructors are declared to take an `OrdinaryFn`). `autonomous()(f)` never registers `f`: in a portal that does not know its name it gives an object that cannot be executed; and if `f` is a pure function that was not executed yet, executing `autonomous()(f)` marks the registered pure function as completed without its augmented source, after which it can no longer be called at all (C86).
42. `assert_ordinarity` looks at different layers of a wrapped function: `inspect.signature` and `inspect.getsource` follow `__wrapped__`, the other checks do not. A wrapper made with `functools.wraps` that captures nothing is accepted even if it takes `*args`, and the *wrapped* function is registered in its place. A source text given as a string is not checked at all, so `*args` functions are accepted in that form (C87).
43. **A copied result becomes visible before its call** (C88, `C88_copied_result_counterexample`). `_ready_in_noncurrent_portals` (pure_core_classes.py:607-625) writes `execution_results` of the current portal first and fetches function and arguments afterwards; a process that dies in between leaves a result in a portal that lacks the signature, and a process that only knows this portal gets a `KeyError`/`AssertionError` from `addr.function`, `addr.kwargs`.
44. **A moved argument is left behind** (C88, `C88_moved_argument_counterexample`). `ValueAddr(addr)` copies the value only if `addr.portal` is another portal (value_addresses.py:43-46); an address unpickled while portal B is current belongs to B although its value is still in A only, so `f.swarm(x=addr)` files a request in B that a worker of B cannot execute. No crash is needed.
45. **The purity of functions is what keeps results stable.** Two processes that compute the same call at the same time both write its result if neither has written when the other checks for an existing entry (`FirstEntryDict` and the immutable dictionary it wraps look and write in separate file operations, first_entry_dict.py:40-44). If the function looks at anything but its arguments – e.g. at whether another call is ready – the second write may replace the stored result by a different one (C89_state_dependent_counterexample).
46. One known portal that is not a `PureCodePortal` (say, a `DataPortal` used as an archive) makes every call that is not answered from the own portal raise `AssertionError`: `get_noncurrent_portals` (foundation.py:176-192) asserts the class of every known portal, whereas `_ready_in_noncurrent_portals` (pure_core_classes.py:608) and `get_from_noncurrent_portals` (value_addresses.py:89, 128) need only those of the class (C91).
47. `pythagoras.describe()` raises `ValueError` (`pd.concat([])`) if no portal exists (C94).
48. `install_package` raises `ModuleNotFoundError` for a package whose module has another name (scikit-learn), although the package is installed then (C95).
49. After `install_package(name, upgrade=True)` or with another version, a program that has loaded the module goes on with the old one; after `uninstall_package` it can still import it (C95).
50. **Fork–join can block every pool of workers** (C97, `C97_all_workers_wait_counterexample`). A worker runs one request at a time (swarming_portals.py, `process_random_execution_request`) and `addr.get()` (pure_core_classes.py:671-718) never executes the call itself but only requests it and sleeps. If a pure function does `g.swarm(…).get()`, a batch of n such calls occupies n workers, all of which wait for calls of `g` that nobody is left to run. `C97_joined_call_gets_done_partial` says that nothing else can go wrong; calling `g(…)` (or `addr.execute()`) instead of `get()` avoids it (C90).
51. **Requests can starve in long queues** (C98, `C98_starvation_counterexample`). `_process_random_execution_request` (swarming_portals.py:205-222) iterates over the requests from the beginning and stops after at most 5001 candidates, and the iteration order of a directory is not random. While more than 5000 executable requests precede it, a request is never considered, whatever random numbers are drawn. Also (C98, `C98_few_executions`): `MAX_EXECUTION_ATTEMPTS = 5` together with `>` and with workers that hold stale candidates allows up to 5 + w executions of one call by w workers.
52. **Without consistency checks, a returned result need not be the stored one** (C99, `C99_unchecked_value_counterexample`). If two processes run a call of a function that is not pure at the same time, `FirstEntryDict.__setitem__` (first_entry_dict.py:40-44) silently ignores the later value, but `execute` returns it (pure_core_classes.py:442). With `p_consistency_checks = 1` the later process gets an `AssertionError` instead.
53. **A stored autonomous function is incomplete and fragile** (C100). Its pickled state has no dependencies (autonomous_core_classes.py:318-327), unlike that of a pure function, so it fails where they are not declared (`C100_dependencies_counterexample`). And the first execution may turn the function into a strictly autonomous one (line 267), which changes its decorator and its pickled state: what was stored before can no longer be read in the session, and the function's value address changes (`C100_stored_before_execution_counterexample`).
54. **Copies change the portal** (C101). `PortalAwareClass.__copy__` (portal_aware_classes.py:60-63) goes through `__setstate__`, which binds the copy to the current portal; only `ValueAddr.__copy__` keeps it. A deep copy of a value address outside of all blocks has no portal (`C101_deep_copy_outside_counterexample`), so reading it fails.
55. Autonomous and pure functions cannot be unpickled outside of all portal blocks (C69, `C69_outside_iff`): they are registered at once in `self.portal`, which is `None` (AttributeError).
56. `HashAddr` defines `__eq__` but no `__hash__` (hash_addresses.py:106-108), so equal addresses cannot be keys of a Python dict or members of a set (`TypeError: unhashable type`).
57. **A failed write leaves the portal entered for good** (C103). `PureFnExecutionFrame.__exit__` (pure_core_classes.py:972-983) stores the output before it leaves the portal, without `try`/`finally`: if the output cannot be stored (full disk, text that cannot be encoded such as lone surrogates, lost connection), the portal is not left and the frame stays on the stack, and the error of the storage replaces the exception of the code. `__enter__` (lines 941-952) registers the attempt after entering the portal and starting the capturer; when it fails, Python does not call `__exit__`, so the output stays captured too (`C103_enter_failure`, `C103_output_failure`). `LoggingPortal.__exit__` (logging_portals.py:326-329) has the same order: recording the exception, then leaving (`C103_log_failure`). An enclosing block of another portal then fails with AssertionError (`C103_enclosing`).
58. **Connecting does not always switch portals** (C104). `connect_to_local_portal` and `connect_to_default_portal` (top_level_API.py:13-21) create a portal but do not enter it, so that it is used only as the most recently added one: after `initialize()`, which enters its portal for good, they have no effect (`C104_entered`, `C104_initialize`); a second `connect_to_default_portal()` does not bring the default portal back into use when another one was added in between (`C104_default_again_counterexample`); after `initialize()` it raises AttributeError if the default portal had been used before (`C104_default_after_initialize_counterexample`).
59. **`@safe()` cannot be used as a decorator** (C87). The normaliser accepts a decorator only if its name is in `pth.all_decorators` (code_normalizer_implementation.py:86-104), and `safe` is missing there (pythagoras/__init__.py:57-62): every `@safe()`/`@pth.safe()` function raises AssertionError when it is defined (`C87_safe_counterexample`); `safe()(f)` for an undecorated `f` works.
60. **One failing access can leave a wrong result for good** (C105). Exceptions that come from the storage pass through a nested call like exceptions of the function called; an outer function that catches them (`try: return f() + 1; except: return 0`) returns normally, and its return value, which depends on the failure, is stored as the result of a call that is pure for the library; results are never replaced (`C105_caught_exceptions_counterexample`).
61. Stale results: the dependencies of a pure function are fixed when it is first executed or pickled. If `f` uses `g`, `g` uses `h` and `f` is called before `h` is declared, `h` never becomes part of `f`'s addresses; sessions with different `h` share the stored results of `f` (C107_stale_dependency_counterexample).
62. Guards given by name need not be strictly autonomous, and what they call is not part of the guarded function's addresses (C107_guard_dependency_counterexample).
63. `ValueAddr(x).get()` returns `x` itself, not what is stored: if `x` was changed meanwhile, the address gives a value that it does not stand for (C108_changed_value_counterexample); the same for the object of a result (C108_changed_result_counterexample).
64. The address objects of `swarm_list`/`swarm_grid` keep the raw arguments (pure_core_classes.py:454): changing a list after `swarm_list` and then calling `execute()` there computes the function for the changed list, returns that, and stores it under another address (C108_swarm_list_counterexample); `kwargs` of such an address gives the changed arguments.
65. The code of a pure function gets the caller's own objects: a function that changes an argument stores a wrong result if two arguments are the same object (C108_same_object_twice_counterexample), and a guard that changes its argument changes what the function is computed for (C108_guard_changes_counterexample).
66. Portal contexts are not thread-safe (C109): `entered_portals_stack` and its counters are class attributes (foundation.py:48-50). Blocks of two threads with different portals that overlap make a thread store into the other thread's portal, and leaving a block raises AssertionError and leaves portals entered; with one portal, a switch between the test in `__enter__` (lines 114-115) and `counters[-1] += 1` raises IndexError if the other thread leaves its block meanwhile.
67. `convert_dict_to_astkeywords` uses `ast.Str`, which is deprecated and absent from Python 3.14 on (astkeywords_dict_convertors.py:33): C110 is about versions that have it.
68. `get_node_signature` joins the parts of a node's description without separators, so different nodes can share a signature (C111 counterexamples). `get_typed` checks with `assert`, so nothing is checked under `python -O` (C112 is about Python without -O).
69. `OutputCapturer` changes the streams of the process, not of the thread: if blocks of two threads overlap without being nested, output of one is lost for its record and stdout stays redirected to a dead buffer after both ended; in any case output of other threads gets into the execution record (C113 counterexamples).
70. `PureFn.call_stack` is one list for all threads (pure_core_classes.py:138, 951, 980): if two threads execute the same function at the same time, an exception of one call is filed under the address and session of the other one (C115_crossing_counterexample).
