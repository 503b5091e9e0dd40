# Formal model of GloMPO in Lean 4

## Layout

* `properties.jsonl` – the English properties.
* `lean/Verif/Model/*.lean` – shallow, total, computable models of the Python code. Every definition cites
  file and lines. No theorem lives here.
* `lean/Verif/Spec/*.lean` – small specifications that do not use the model's helpers (what "earliest minimum",
  "running minimum", "round robin", ... mean, on plain lists).
* `lean/Verif/Lemmas/*.lean` – helper lemmas.
* `lean/Verif/Props/*.lean` – the property theorems, named `Cxx_...`, each with an `example` showing that a
  concrete non-trivial case meets its hypotheses. `_partial` marks a theorem which proves only a part of its
  property; `_refuted` marks a machine-checked counterexample where the code does not have the property.
* `MANIFEST.json` – property -> theorem names.
* `seeded/LOG.jsonl` – mutations tried against the theorems.

## Conventions of the model

* Python exceptions are values (an error constructor next to the state reached when it was raised, because Python
  keeps mutations made before a `raise`).
* Function values are `PyF`: a rational, `+inf`, `-inf` or `nan`, with Python's comparison semantics (every
  comparison with `nan` is false). `Props/Float` proves that the comparisons and the arithmetic of `PyF` are those of
  the extended real numbers, with the rules of IEEE 754 for `nan`. Rounding of IEEE arithmetic is not modelled: where arithmetic is involved
  (scaling, distances, annealing) exact rationals or reals are used.
* Dictionaries are association lists in insertion order, sets are lists used only through membership.
* Concurrency: everything the manager can observe of its children (liveness, pipe contents, queue contents, clock)
  is an explicit argument chosen by the environment at every observation point. The theorems quantify over all these
  arguments, hence over all schedules.
* Random draws are arguments.
* User-supplied plug-ins (selectors, hunters, checkers, generators, optimizers) are arbitrary functions/state
  machines unless a bundled one is meant.

## Trusted base

* Lean 4.33.0 kernel; Mathlib where imported. Axioms: only `propext`, `Classical.choice`, `Quot.sound`
  (checked with `#print axioms`). No own axioms, no `sorry`, no `native_decide`/`bv_decide`.
* The correspondence between the Python text and the Lean model is by reading (citations); it is not verified.

## Per-property plan

| id | model | proof |
|----|-------|-------|
| C01-C03 | `Model/Logger`: `BaseLogger` as state machine over add/put/clear operations | invariant by induction over operation lists against a spec that folds nothing but the list of puts |
| C04 | `Model/FileLogger`: write buffer + file rows | refinement to the in-memory log, induction over operations |
| C05-C07 | `Model/Queue`: `ChunkingQueue` with capacity, chunk size, cache, mode | invariant received ++ queued ++ cached = accepted; C06 refuted by witness, partial for the normal mode |
| C58, C59 | `Model/QueueConc`: threads interleaving inside the queue methods | inductive invariant over all reachable states |
| C08-C11 | `Model/Selectors` | case analysis, induction over request sequences |
| C12, C13 | `Model/Combi`: trees of conditions with last-result cells | structural induction |
| C14, C15 | `Model/Convergence` | case analysis; induction over evaluation sequences |
| C16, C17, C60 | `Model/Hunters` | decision logic against list specifications |
| C17, C50, C61-C63 | `Model/HuntersReal` (real numbers, Mathlib) | real analysis; Euclidean distance of Mathlib as specification |
| C18-C31, C64, C67 | `Model/Manager`: manager state, all loop functions, environment inputs | inductive invariants over arbitrary iteration inputs |
| C32 | `Model/Setup`: `setup` as staged state with exceptions | case analysis over all combinations of arguments |
| C33-C36, C66 | `Model/Checkpoint`: names, tokens, directory as finite map, file operations with failure points | induction / invariant; refuted parts by witness |
| C37 | `Model/Handshake`: manager and any number of optimizers as one transition system, all interleavings; and `Model/Manager` for whole runs | inductive invariant; completion by a lexicographic measure; for the runs, what each piece of the checkpoint records |
| C38, C40 | `Model/Setup`: `load_checkpoint` from any content of a checkpoint | stage by stage inversion, arithmetic |
| C30, C41 | `Model/Sessions`: start and end stamps over sessions | induction over session histories, refuted parts by witness |
| C39, C71 | `Model/Rollback`: the log file between sessions | the invariant of `FileLogger` carried through rollback and reopening |
| C42, C43, C68 | `Model/Optimizer`: user code as an arbitrary state machine, observations as in the manager | induction over the fuel, Hoare rules for what is read and recorded |
| C44, C45 | `Model/RandomOpt` | loop invariant; refuted part by witness |
| C46-C49, C65 | `Model/Helpers` | induction |
| C51, C69, C70 | `Model/Generators`, `Model/GeneratorsReal` | rational and real arithmetic, roulette by list induction, the log through `BestInv` |
| C52, C53, C72-C76 | `Model/Params` | field arithmetic, induction over activity pattern and over dictionaries |
| C54, C55, C77, C78 | `Model/Redirect`, `Model/Scope` | induction over events; case analysis for `CustomThread` |
| C79-C82 | `Model/Benchmarks` over the reals, documented formulas in `Spec/BenchmarkDocs` | inequalities on sums and products, polynomial bounds of sine and cosine (`Lemmas/Numeric`), derivatives |
| C83-C85 | `Model/CMA`: loop of the CMA wrapper with arbitrary populations, values, cancellations and messages; `Spec/CMA`: the iterations of a run and the stops received, from the environment alone | the loop equals the specification (`loop_facts`); invariants for the best point, checkpoints and injections |
| C86-C87 | `Model/GFLS`: numbered evaluations, arbitrary completion order, hooks, messages, restarts | permutation invariant over loop and sessions |
| C88-C89 | `Model/Nevergrad`: the callback wrapper and the SciPy wrapper | induction over the values told |
| C90 | `Model/Nested`: text as lists of characters | induction over the condition, comparison with an independent layout |
| C91 | `Model/OldResults`: directory as map, purge and files written | case analysis over names, folds |
| C92 | `Model/Plot`, `Model/PlotReal`: curves, markers, scale | from C01, C56 and the log invariants; real logarithm |
| C93 | `Model/Manager`: checkpoints written (`snapshot`) and loaded (`loadCheckpoint`, `Startable`) | invariant of everything saved: what is loaded may be started |
| C94 | same | from the invariant and C21 |
| C95 | same | walk through `start_manager`, frame of the events |
| C96 | `Model/Manager`, queue contents as a specification of the environment (`Spec/Manager`: `QueueShows`) | everything taken from the queue is processed, by composition over the program |
| C97 | `Model/SplitLogs` | invariant of one optimizer's file over all messages |
| C98 | `Model/AnnealGen`, over the reals | invariant of all loop passes and calls |
| C99 | `Spec/System`: the models of manager, queue and optimizers, each being the surrounding of the others | composition of C42, C58, C96, C21-C23 |
| C100 | label set of the walk through the manager: a stop signal is an atomic change with a precondition (`Lemmas/ManagerStep`) | invariant over the walk, split into work and winding up |
| C101 | `Spec/System`: pipes added to the models of manager, queue and optimizers | induction over the optimizer's program (`Lemmas/OptimizerOrders`), composition with C31 and C99 |
| C102 | `Model/Manager`: exceptions may arrive at every observation; the scope's methods swallow Ctrl-C | every piece of the program ends with the exception if Ctrl-C is what it sees next (`Lemmas/ManagerExt`), by induction over the program; refuted with visualisation |
| C103 | `Model/ParamsWrap`: `GlompoParamsWrapper` on top of `Model/Setup` and `Model/Manager` | first call by C32 and C22, no resumption in the history of a fresh manager; later calls by induction over the calls; refuted by runs |
| C104 | `Model/Attributes`: objects as lists of attributes, the four filters, dumping and setting | round trip by induction over the dump |
| C105 | `Model/Attributes`: the loaded log as object, `FileLogger.open` | by computation with symbolic contents |
| C106 | `Model/TaskSave`: `_checkpoint_task`, on top of `Model/Setup` (loading) and `Model/Checkpoint` (files) | case analysis, C40 for loading |
| C107 | `Model/Interventions`: names, the working directory, user and manager acting on it over several runs; `Model/Manager` for the run | induction over files and over histories; counting of requests |
| C108 | `Model/Interventions` | case analysis; counting of requests |
| C109 | `Model/Summary`: objects, YAML nodes and native values, the presenters, the data of `_save_log`; `Model/Manager` for the counters | mutual induction over objects; following keys through the dictionary; C48 for bounds, C23, C24, C26 for counters |
| C110 | `Model/Spawn`: dictionaries by address, so that sharing is visible; parsing by the selector, set-up by the manager | invariants over parsing and over choices |
| C111 | `Model/Headers`: types of values and columns, inference, the order PyTables gives columns, rows by position, writing at any time; the same in memory | invariants over the evaluations; sorted descriptions stay in order |
| C112 | `Model/WorkDir`: directories, files, the working directory, programs with exceptions, `WorkInDirectory` as `with` statement and as object | induction over programs |
| C113 | `Model/Resources`: measurements, nan at loading, the summary | induction over measurements and loadings |
| C114 | `Model/Restart`: what the manager keeps of an optimizer and calls it with again; `sigma0` in CMA, `callbacks` in Nevergrad | composition with the selector of C110, the wrappers of C83 and C88 |
| C115 | `Model/Reweigh`: entries of the data set with key, weight and sigma, references, the loop | induction over references |
| C116 | `Model/Reweigh`: files of `checkpoint_save` and `save`, the loaders; reading of YAML and xTB files by ParAMS is a parameter | case analysis; for the refutation with xTB files, two engines with the same files |
| C117 | `Model/Manager` and `Model/FileLogger` together: the calls of the log made in a run, with the file | the manager's invariant gives that its calls are well formed and that releases follow last messages; invariant of the file log |
| C118 | `Model/Status`: `_build_status_message` on the state of `Model/Manager`, with either log | the manager's invariant; reading histories is C02 and C04; digits of numbers from core lemmas |
| C119 | `Model/Manager` with the texts written to the log; `Spec/Ends` lists the true endings | `Lemmas/ManagerEnd`, `ManagerEnd2`: a Hoare logic for the program (`Safe`) whose invariant relates end conditions written, burials, and optimizers held |
| C120 | `Model/Criterion`: what criteria read of the manager; `Spec/Criterion`: when a history meets a criterion | the steps of the program which go on need an unmet last check (`Open` in `Lemmas/ManagerStep`); counters and best value by the invariant |
| C121 | `Model/Hunt`: the bundled conditions as a family and combinations of them; `Spec/Hunt`: when evaluations deserve a shutdown | the invariant of the manager says that the leader's history is in the log; the theorems about single conditions are applied to operations which yield the reported evaluations |
| C122 | `Model/Convergence` (`kacSeq`), `Spec/DefaultCriterion`: what the answers so far tell about the history | C15 for the sequence of checks in the history; C120 for what follows an answer |
| C123 | `Model/CheckpointSeries`: calls of `checkpoint` one after the other, each naming itself from the directory | Invariant `Kept`: what the directory holds after a list of successes; C35 for one more success; digits of equal length are ordered like numbers |
| C124 | `Model/LoadCheck`: the two calls of the criterion on a manager not started yet | Answers do not change if the criterion is asked again on the same manager; the rest from `startManager` and C120 |
| C125 | `Model/LogAttributes`: the attributes written by `_save_log` and `FileLogger.close`, in the order of the end of `start_manager` | `C125_attributes` by keys being different; `C125_run_partial` by C117 and C109; `C125_summary` from the summary read back |
| C126 | `Model/Trials`: the pictures of parameter values as columns by file name | `C126_all_partial`, `C126_one` by induction on the loop from C02 and different names for different numbers; witness for released memory |
| C127 | `Model/Manager`: the class in the answer of the selector, in the registration, in the result | invariant of the atomic steps: every registration and every origin stands behind an answer of the selector followed by the id; `C127_type_hunter` from it and what is stored in the log |
| C128 | `Model/CMASettings`: sorting of the settings, population size, repeated calls; the options known to the cma package and its samplers are parameters | dictionaries by induction over the settings; calls by induction over the sequence |
| C129 | `Model/Manager`: `huntIfDue`, `startHunt`, `huntLoop`, `shutdownJob` | inversion of every step which ends without an exception; induction over the list of optimizers; that hunts are not put off: every function of the manager keeps it, however it ends |
| C130 | `Model/FileLogger`: `put_iteration`, `flush`, `clear_cache`, `get_history` | sums over the buffers; induction over the operations |
| C131 | `Model/Settings`: the constructors of hunters, criteria, generators and of the chain selector on arbitrary Python objects | case analysis over the kinds of objects; `C46` for bounds |
| C132 | `Model/NevergradSave`: `checkpoint_save`, the file, registrations after loading | two runs are compared, one with and one without checkpoints; induction over the resumptions |
| C133 | `Model/DeepSize`: `deepsizeof` on object trees, evaluations handed to the log of C130 | structural induction against the sum of all sizes; induction over the evaluations held back |
| C134 | `Model/Names`: how names are formatted and read back; `process_print_redirect` with all interleavings | decimal notation is injective and read back by `int`; induction over histories |
| C135 | `Model/Movie`: the dictionary `movie_kwargs` as a shared object, paths, `setup_moviemaker`, `load_state` | invariant over sessions: a dictionary is only touched by scopes which were given it |
| C136 | `Model/Manager`: filling of slots, main loop, check of the criterion | invariant of the program: since the last check no more optimizers were created than slots are taken, which are at most `max_jobs` while the loop goes on |
| C137 | `Model/Manager` together with `Model/Selectors`: the answers in a run are those of a selector of the package | invariant of the program: every choice is followed at once by the creation; facts of C08 and C09 about series of requests |
| C138 | `Model/Manager` together with `Model/Selectors` | the refusals of a selector in a series of requests; C137 and the bound of C18 on the slots offered |

## Where the code departs from a property

Each is backed by a machine-checked witness (`_refuted`), the part which does hold is proved next to it.

* C57: `FileLogger.get_history` of a released optimizer raises `KeyError` (its write buffer was deleted by
  `clear_cache`), although the file is complete.

* C06: `ChunkingQueue.put` with a timeout, in caching mode: after `Full` the item stays in the cache, a retry delivers
  it twice.

* C10: `ChainSelector` with as many thresholds as optimizers raises `IndexError` after the last threshold, where the
  documentation promises that spawning is turned off.

* C13: if the same condition object occurs twice in a combination, the text with results may show `None` for a
  condition that was evaluated (the inner combination resets it). The property is proved for distinct objects.

* C16: `BestUnmoving(calls=0)` can be constructed and raises `ValueError` when called.

* C61: the documentation of `ValueAnnealing` calls `med_kill_chance` the probability of killing a victim twice as
  large; it is the probability of survival. The documented reading holds only for 0.5 (the default).

* C63: `ParameterDistance(test_all=True)` enumerates `1..n_optimizers`, but `n_optimizers` shrinks when memory is
  released: the newest optimizers are not compared.

* C19: number of optimizers started, converged and killed in the returned `Result` are those at the last accepted
  evaluation; kills of the hunt triggered by that very evaluation are already missing.

* C22: if sending the incumbent fails, the run ends as crashed with a result older than the log.

* C26: an optimizer killed before a checkpoint is counted as converged too if its end message is read during the
  checkpoint (`_checkpoint_optimizers` does not look at the graveyard).

* C27: `_stop_all_children` sends all stop signals in one `try`: the first failure leaves the others running.

* C28: "Not enough worker slots" although spawning was stopped on purpose, if the last optimizer terminates between
  the convergence check and the next `_fill_optimizer_slots`, or spawn control first answers `False` then.

* C31: an incumbent of value 0 is sent after every evaluation; a first evaluation of NaN or inf sends an empty point.

* C33: from the thousandth checkpoint on the same name is produced again (the pattern reads three digits); with a dot in
  the format `with_suffix` cuts the number off the name of the archive. Either way the last checkpoint is overwritten.

* C34: `?` is not escaped in the pattern; a number beyond 999 followed by text is not recognised.

* C35: if the new name does not sort after the older ones (time of day after midnight) the new checkpoint is deleted.

* C36: an error of the compression other than `TarError` (full disk) loses the checkpoint that was to be overwritten.

* C66: broken archive after a tar error; history wrong after a failed overwrite and after other errors.

* C45: the random optimizer takes messages before it updates its best point: the evaluation just before a checkpoint is lost.

* C48: bounds `(0, 1)` and `(0.0, 1.0)` in one problem: the set merges them, the text key of the second is missing, `KeyError`.

* C51: the incumbent generator returns an empty point after evaluations of NaN or inf only. The exploit-explore generator
  raises `ValueError` in every call by the manager: the optimizer to be started is already in the log, with an infinite
  best value, so the selection probabilities are NaN.

* C69: a single optimizer, or equally good ones: the point is random whatever the number of evaluations.

* C70: the step size of basin hopping exceeds `max_step_size`, points leave the bounds, a draw of exactly 0 picks an optimizer
  without a point (`AttributeError`).

* C32: `max_jobs=0` is accepted and means the default; on one processor the default is 0. A load that fails after the manager's
  variables were read leaves the manager initialised without a task: neither a second load nor `setup` is possible.

* C40: if the loader fails the given task is not used, contrary to the documentation; if the file of the task cannot be read
  neither is tried; a restored task which is falsy is replaced.

* C30: a keyboard interrupt before the start of the session was recorded raises `IndexError` in the clean-up.

* C41: naive local time: a change to summer time counts as an hour used. A checkpoint made by the user after a session moves the
  end of that session. `start_manager` called twice on one manager uses the first session's deadline.

* C39: `f_counter` is written to the log file only by `close`: after a lost process there is no rollback (first session:
  `AttributeError`; later: rows beyond the checkpoint stay). Groups of optimizers without evaluations stay. Every session writes a
  new checksum, so an earlier checkpoint cannot be used a second time.

* C71: `checkpoint` saves the log before the last results of the optimizers are taken and the manager afterwards: numbers repeat
  after the resumption. Optimizers whose first evaluation came after the checkpoint have length 0 until their rows are on disk.

* C64: end marker (results queue) before end signal (pipe): storage released, `KeyError`, "GloMPO Crash".

* C37: a process which dies after it replied to the request to pause, or whose `checkpoint_save` raises, never clears
  its event: the manager waits for it for ever (`C37_hang_refuted`). A failure reported by one optimizer while the
  manager collects replies raises `RuntimeError` in the manager, and the optimizers that already replied wait for an
  instruction for ever (`C37_left_waiting_refuted`).

* C72: `set_parameters` compares values of active parameters with the ranges of all parameters and the reverse
  (`params.py:402-403` has the two cases swapped): warnings are missing or false as soon as a parameter is inactive. A
  value on its bound is reported as outside.

* C73: activating only ReaxFF parameters which must not be activated raises `IndexError` instead of being ignored with a
  warning.

* C74: `headers` uses the truth value of the validation set, `detailed_call` its presence: four values for two columns
  if it is empty. A failing validation set makes the training error infinite.

* C75: with both files present the YAML file is loaded after the pickle, which is documented to have priority.

* C54: `write` tests whether the file is open and then writes: closing in between loses the message and raises
  `ValueError` in the printing thread. Registering a file again truncates it. `flush` does nothing, so `print(..., flush=True)`
  no longer flushes.

* C55: with elitism a NaN, or truncation of all points of an optimizer, makes the plot forget the minimum.

* C77: `SystemExit` in an optimizer thread leaves the exit code at 0, so the manager counts it as a normal end.

* C79: `ZeroSum` announces the minimum of `Vincent`; `Shekel` the same value for all arguments (and with the shift), `Shubert` the same for one
  and two dimensions and wrong ones for styles 3 and 4, `Michalewicz` the same for all `m`; `Rana` and `Alpine02` go lower than announced.

* C80: `jacobian` uses the 11th and 5th power of sigma instead of the 12th and 6th.

* C81: atoms in the same place have no energy; `LennardJones.min_fx` tests the number of coordinates instead of the dimension, so it is NaN for
  all clusters in space.

* C82: the last component of `Levy` counts twice; the documentation of `Deceptive` lacks the exponent, that of `Schwefel` contains
  a constant the function does not, that of `Shubert` (first style) has a sum instead of the product.

### CMA wrapper (C83-C85)

* A better point evaluated in a population which a stop breaks off is never told, so the result is not the lowest value found
  (`C83_lowest_value_refuted`).
* An optimizer resumed from a checkpoint taken after a stop, without any value below infinity, raises `TypeError` at `x[0]`
  (cmawrapper.py:217, `C83_no_iteration_refuted`).
* A run which ends by convergence is reported as a failure: only `callstop` sets `success` (`C84_convergence_refuted`).
* An incumbent sent while the first population is evaluated is overwritten at cmawrapper.py:181 (`C85_first_incumbent_refuted`).

### Other optimizer wrappers (C87-C89)

* GFLS never fills in its result: `x` is `None`, `fx` infinite (`C87_result_refuted`); convergence is not a success (`C87_success_refuted`).
* Nevergrad without a manager ignores its termination conditions and the callbacks (`C88_alone_refuted`); a sequence of callbacks is not
  stored (AttributeError, `C88_several_refuted`); after a restart `callbacks` is stored as passed, so `None` or a single function is iterated
  over (TypeError at the first value, `C88_resumed_refuted`).
* The SciPy wrapper never reports success (`general_opt` is always false, `C89_success_refuted`).

### Texts, files and plots (C90-C92)

* `nested_string_formatting` removes a closing bracket at the end even if none opened the text, and takes brackets in parameters for levels
  (`C90_pairs_refuted`, `C90_brackets_refuted`).
* Print streams and movies of earlier optimizations do not count as results and are overwritten (`C91_streams_refuted`,
  `C91_movie_refuted`); a resumed optimization refuses to start because of the summary written by its own first session
  (`C91_resumed_refuted`); removal stops half way at a folder (`C91_folder_refuted`).
* `plot_trajectory` does not know Nevergrad's final message (`C92_nevergrad_refuted`); `log_scale=True` with values of both signs is not
  monotone (`C92_mixed_signs_refuted`).

### Resumed optimizations (C93-C95)

* The log is saved first (manager.py:1133), then the optimizers are paused and their last evaluations are accepted; those are missing after
  loading although they are counted and may be the result (`C93_resume_keeps_evaluations_refuted`).
* `_checkpoint_optimizers` asks only whether an optimizer is alive, not whether it was shut down (`C94_killed_not_continued_refuted`).

### End of the queue, log files, annealing generator (C96-C98)

* `_process_results` stops after ten accepted results per turn and the run ends as soon as no optimizer is alive; what is still in the queue is
  lost (`C96_no_evaluation_left_refuted`: the eleventh evaluation, the best one).
* The filter which opens an optimizer's file sits on a handler, so messages below that handler's level do not open it
  (`SplitLogs.C97_refuted`).
* `AnnealingGenerator`: evaluations of `EnergyState.reset` are not counted (`C98_all_counted_refuted`); with bounds narrower than the
  tolerance of `isclose` the loop has no end (`C98_endless_refuted`). The generator changes the manager's counters itself
  (annealing.py:113-114); the manager model does not include this, so C03 and C23 are about generators which do not. What the SciPy
  chain does is arbitrary in the model.

### The whole system (C99)

`Spec/System` puts the three models together: what the manager reads is what the concurrent queue gives away, what the queue gets from
thread `i` is what the program of optimizer `i` puts. The three models are unchanged; a theorem about the whole is a theorem about every
triple of runs which fit together.

### Orders to optimizers (C100, C101)

The pipe from the manager to optimizer `i` is described by `Spec/System.Piped`: the messages the optimizer has read belong, in order, to
events of the manager. `Sends` lists which message is sent at which event; the path of the save message may be anything, since the manager
model has no paths of checkpoint members. A terminated optimizer (process backend with `aggressive_kill`, or forced termination) is a `stop` event without a message.

### Ctrl-C is swallowed by the scope (C102)

All methods of `GloMPOScope` are decorated with `catch_user_interrupt` (scope.py:33). If Ctrl-C is pressed while the scope is drawing, the
optimization goes on as if nothing had happened (`C102_interrupt_refuted`). Ctrl-C during the check before the start (manager.py:907-920)
is caught by nothing and `start_manager` does not return a result.

### The ParAMS wrapper only works once (C103)

`GlompoParamsWrapper.minimize` calls `setup` of the same manager again. `setup` of an initialised manager does nothing but warn, so
the function, the bounds and the workers of every later call are ignored; if the convergence condition still holds, the result of
the first call is returned again, with `success` (`C103_second_call_refuted`, for all calls). `len(result.x)` (params.py:138) raises `TypeError`
when nothing was evaluated. `manager_kwargs['max_jobs'] = workers` is kept by the wrapper even if `setup` then fails.

### Attributes lost in checkpoints (C104)

`BaseOptimizer.checkpoint_save` drops every callable attribute, also those which are data (a user's step function), without a word
(`C104_callable_refuted`). Public properties are dumped with their value; on loading `setattr` fails for those without setter, and the optimizer is
skipped with a warning (`C104_property_refuted`). `needs_optional_package` turns every `ImportError` inside `checkpoint_load` into the answer `None`: the
manager then has no log and fails later (`C104_missing_module_refuted`).

### Resuming without `glompo_log.h5` (C105)

The documentation (`docs/components/checkpointing.rst`, docstring of `load_checkpoint`) says that a warning is given and a new file is begun. No
warning is given, and the log loaded lacks `_groups` and `_tables`, which are only set in `__init__` and by opening for
appending: the first evaluation raises `AttributeError` (`C105_new_file_refuted`).

### Tasks which cannot be pickled (C106)

`_checkpoint_task` and `_checkpoint_manager` expect `PickleError`. `dill` raises `TypeError` for locks, generators and many other
objects. Then `task.checkpoint_save` is not called, the checkpoint fails with this `TypeError` even if `raise_checkpoint_fail` is off, and the run
ends (`C106_unexpected_error_refuted`).

### Stop files (C107)

`_is_manual_shutdowns` removes a file only when it stops somebody. A file for an optimizer which is gone, a second file for the same optimizer
and a file like `STOP_1_2` stay in the directory (`C107_left_behind_refuted`), although the documentation says that files are deleted once processed. What
stays is a request to any later optimizer of this number: one started later in the run, or one of the next run in the same directory, since
`_purge_old_results` does not remove stop files (`C107_later_optimizer_refuted`). A directory of this name raises in `unlink`, and only `ValueError` is
caught: the run ends (`C107_directory_refuted`).

### Requests for checkpoints (C108)

`docs/userinterventions.rst` says that without `CheckpointingControl` the checkpoints appear in the working directory of the run. The control made on request
resolves `checkpoints` in the directory the program was started in (`C108_where_refuted`). If the checkpoint raises, the control made on request is not
taken away again, and the summary reports checkpointing which was never set up (`C108_settings_refuted`).

### The summary file (C109)

PyYAML's own representers for tuples, functions and plain classes come before `unknown_object_presenter`, and give tags only an unsafe loader accepts: a
summary with a function as `allow_spawn`, or a tuple among the arguments of an optimizer, cannot be loaded with native types
(`C109_settings_unloadable`, `C109_spawn_function_refuted`), which is what the presenter is for. Two conditions meant to tell functions from objects
ask `isinstance(x, object)`, which always holds; so a function as task appears as `function`. `Working Dir` is the directory of the process and not
`working_dir`; "all GloMPO settings" of `docs/outputs.rst` leaves out several (`C109_silent_refuted`, `C109_assignment`). Saving happens in the `finally` of
`start_manager`: if grouping the bounds raises (C48) the result of the whole run is lost (`C109_lost_refuted`). While a session runs `t_end` is `None` and
`write_summary_file` raises `TypeError` (`C109_running_refuted`).

### The backend of optimizers (C110)

`_setup_new_optimizer` deletes `backend` from the dictionary of arguments. With threads it works on a copy, with processes on the dictionary of the selector, which
is the user's own: only the first optimizer gets the backend configured (`C110_backend_refuted`).

### Headings of extra results (C111)

The log file is made from a dictionary of column descriptions, which PyTables orders by `pos` and then by name, while rows are written by position. The
example in the documentation of `BaseFunction.headers` gives no positions: its table has the columns `call_id`, `x`, `errors`, `fx`, ..., and writing raises. With columns of
equal types nothing is noticed, but values are under wrong names (`C111_documented_refuted`). If the first heading is not called `fx` there is a column too many
(`C111_first_refuted`). The table is made at the first evaluation; an optimizer which later asks for more or fewer results loses them (`C111_mixed_refuted`).
`infer_headers` knows Python's types and those of numpy which are instances of them; `numpy.int64` or `numpy.bool_` end the run with `TypeError`
(`C111_numpy_refuted`).

### Working directories and resumed optimizers (C112, C114)

* `WorkInDirectory` makes the directory and changes to it in `__init__`, so an object made and not entered leaves the process there, and entering one again
  executes the body somewhere else (`C112_kept_refuted`).
* A checkpoint keeps class and slots of each optimizer; the arguments of the call are not kept, and the backend is the manager's default (`C114_lost_refuted`). `CMAOptimizer.minimize`
  checks `sigma0`, an argument of the call, before it looks whether it was resumed: every CMA optimizer resumed by a manager raises `ValueError`
  (`C114_cma_refuted`). Nevergrad's raise `TypeError` (`C114_nevergrad_refuted`). What C83-C86 say of resumed CMA optimizers holds for `minimize` from
  cmawrapper.py:156 on, with a positive `sigma0`.

### Weights, and error functions in checkpoints (C115, C116)

* `reweigh_residuals` with an unknown reference raises after the weights before it were changed (`C115_atomic_refuted`). Entries of weight zero still contribute when jobs
  fail: infinity times zero is nan (`C115_off_refuted`).
* `checkpoint_save` keeps neither validation set nor scaling nor loss. With `from_params_files` as `task_loader` the resumed task returns two values where the log
  has four columns (`C116_validation_refuted`, `C116_settings_refuted`).
* An older `data_set.yml` in the directory is loaded over the pickle (`C116_stale_refuted`, compare C75).
* xTB parameters are saved as classic files, without activity and ranges, so the dimension of the problem may change (`C116_xtb_refuted`).
* `save` writes no `reax_params.pkl`, so neither loader can read its output (`C116_save_refuted`).

### Runs with a log file (C117)

* `Model/Manager` keeps the log in memory. `C117_log_file_partial` transfers its calls to the log with a file. The decisions may differ (`C117_hunts_refuted`): after
  `clear_cache` the file log still answers `has_iter_history` with `True`, so the hunt does not pass over an optimizer which has sent its last message but whose end has
  not been seen in its pipe. Reading its history raises `KeyError` (C57), and the optimization ends as crashed.

### Status messages (C118)

* The text of the table (headings, widths, memory and CPU of the machine from psutil, the time) is not modelled; `Message` has the numbers put into it.
* `Model/Manager` does not make the call: the message is a function of the state, so the theorems speak of the message at any moment. With the log in memory it raises nothing
  and leaves the state alone. With a log file it raises `KeyError` when a running optimizer has been released (`C118_file_refuted`), the cause being that of C57 and C117.

### Ends of optimizers (C119)

* The text of the end condition is kept in the model for terminations up to the reason, which for hunts is the constant `hunt` (in the code the tree of hunters which
  were content).
* Only the log in memory is considered here; the log file gets the same operations (C117).
* Refuted: manager.py 1833-1836 records the end an optimizer reports during a checkpoint without asking whether it was terminated before (`C119_killed_refuted`). The
  log is saved before the optimizers pause, the manager after that (1130-1142): an optimizer ending in between is buried without a recorded end (`C119_resumed_refuted`).
  A `ValueError` in a shutdown requested by a STOP file is swallowed after the burial and before the record (1572).

### The criterion and the run (C120)

* That the answer to a check is the one of the criterion given, called on the manager at that moment, is the hypothesis `AnsweredBy`; in the model of the manager
  the answers come from outside. `C120_answer` shows what the criterion would see at any moment.
* If the check before the start raises an exception it counts as not met (907-920); such checks leave no trace in the history.
* `KillsAfterConvergence` remembers the first check at which it was looked at and enough optimizers had converged. In a combination it is looked at at every check
  only in the first place; `C120_kills_after` is about that (`Spec/KillsAfter`). In the second place of `&` the order of the parts changes the answers
  (`C15_order_refuted`).

### Hunts and true evaluations (C121)

* That the answer in a hunt is the one of the conditions given, called on a log which tells what victim and hunter reported, is the hypothesis `HuntedBy`; in the
  model of the manager the answers come from outside. `C121_log_tells` and `C121_leader_kept` show that the manager's log is such a log.
* The memory of an optimizer is released when its end is read and it is not the one in `result.origin` (manager.py:1481-1484). After loading a
  checkpoint `result` may name another optimizer than the best of the log: an evaluation read while the checkpoint was taken is in `result` but not in the
  log. Then the leader's memory is released, `len` of it is 0, and TimeAnnealing(0.5) with the number 0.25 drawn shuts an optimizer down although leader
  and victim have made one evaluation each.

### The default criterion (C122)

* One object answers all checks of a manager's history, through checkpoints: it is saved with the manager. That its answers are those given at the checks
  is the hypothesis `AnsweredInTurn`. It is also called when a checkpoint is loaded (805-808); this call counts among those it remembers.
* Checks are made once in each iteration of the manager (manager.py:1019), convergence is noted by `_check_signals` (1368-1372) and kills in `_process_results`
  before. A kill in the same iteration as the convergence which allows it to count does not count.

### Series of checkpoints (C123)

* An attempt may fail while it is being saved (any exception, before or after the history is extended). Failures of the compression and of deletions are
  left to C35, C36 and C66.
* The directory exists and holds nothing of the format at first. The theorems also speak about resumed runs in that a series may be split at any point:
  nothing is remembered between calls but the directory and the history.

### The check on loading (C124)

* Criteria of users are not modelled, only combinations of the bundled ones. The text of the warning is the subject of C90.

### Attributes of the log file (C125)

* Which attributes HDF5 can store is a parameter (the limit of 64 kB leads to a warning only). The types and headers of extra results per optimizer are the subject of other properties (C111, C117). The checksum is not changed at the end of a session.
* If saving the summary or drawing the plot raises, `start_manager` raises and never closes the log (`C125_lost_refuted`).

### Pictures of parameter values and best values (C126, C92)

* `ax.plot` of a list of points is modelled as the columns of the array; what matplotlib draws, and its interactive mode (which is not switched on again after an exception), are not modelled. The only caller in the package of `plot_trajectory` never asks for `best_fx=True`, users may.
* One NaN prevents the plot of best values for all optimizers (`C92_best_nan_refuted`).

### The class of an optimizer (C127, C121)

* The name of the class comes with the answer of the selector in the model; in the code it is `type(optimizer).__name__` of the object made from the selected class, so a class whose `__new__` makes objects of another class is outside the model.

### The settings of CMA (C128)

* Values given for settings are numbers, `None` or anything else; the last are true as conditions and cannot be compared with numbers, so a population size given as a formula raises `TypeError` (cmawrapper.py:150).
* `minimize` may be called several times on one object, as the class promises (cmawrapper.py:24-25), but only the first call sets the population size (143-148): `C128_later_call_refuted`.

* C131: `BestUnmoving`, `EvaluationsUnmoving`, `LastPointsInvalid`, `StepSize` and the counting criteria look at none of their numbers: `BestUnmoving(0)` fails at the first optimizer it is asked about. `ParameterDistance` takes fractions above 1, `MaxSeconds` negative limits, `ExploitExploreGenerator` an exponent which is not a number, `PerturbationGenerator` deviations of nought, `SinglePointGenerator` points outside the bounds; `MinFuncCalls` refuses integers of numpy.

* C132: `Nevergrad.checkpoint_save` does not give parent and callbacks back if the dump raises (`C132_failed_refuted`), and ignores its argument `force`. `minimize` of a loaded optimizer registers the wrapper although it is already registered in the pickled algorithm (`C132_called_again_refuted`).

* C133: `deepsizeof` adds nothing for items which are not containers, so for an evaluation it is the size of two tuples, whatever arrays are in them (`C133_evaluation_refuted`); the 100 MB buffer of the log file can take any amount of memory (`C133_limit_refuted`).

* C134: an optimizer which goes on in a resumed run in the same directory keeps its number, and its print files are opened with mode `w`: what it printed in the first run is lost (`C134_resumed_refuted`).

* C135: `setup_moviemaker` writes the full path of the movie into the user's dictionary `movie_kwargs`; an absolute path wins over the working directory, so the next manager which is given the dictionary overwrites the movie (`C135_shared_refuted`). `with_suffix('.mp4')` maps `T0.1` and `T0.2` to `T0.mp4` (`C135_name_refuted`). Loading a checkpoint opens the first run's movie for writing (`C135_resumed_refuted`).

* C136: `MaxOptsStarted(n)` may be overshot by `max_jobs - 1` optimizers, since all free slots are filled before the criterion is asked (`C136_limit_refuted`).

* C138: nothing checks that the configured optimizers fit `max_jobs`. A cycle selector asks for the same optimizer until it fits, so one with more workers blocks all after it for ever (`C138_blocked_refuted`); the manager only notices when nobody else is at work, and then ends the optimization with an exception.

## The manager model

`Model/Manager` is the main loop of `start_manager` with everything it calls, as one program in a monad of state,
exceptions and observations. An observation is any look outside: `is_alive`, pipe, queue, clock, file system, plug-in.
The environment is the list of what will be seen; an observation may raise any exception and processes may die at any of
them. A run whose list is used up is pending, so the theorems, which hold for every list, hold at every moment of every
run. `ev` is a ghost record of what happened; `Spec/Manager` defines the vocabulary of the theorems on it alone.
`Lemmas/ManagerStep` defines the atomic changes and the invariant, `ManagerInv` shows that each keeps it, `ManagerWalk`
and `ManagerProg*` that every piece of the program is a sequence of such changes. `Startable` are the managers a user may start: set up
afresh, or loaded from any checkpoint written during a run (or the setup) of a startable one, with any settings, so the theorems
cover every chain of interruptions and resumptions; `session` is what happened since the last loading. Reading the files of a
checkpoint is the subject of `Model/Setup`. Not in this model: the file log (C04 shows it agrees), the status messages (`Model/Status`, C118), summary files, the resources
thread. Of the visualisation the model has the calls of the scope: each may raise an exception (which ends the run), but Ctrl-C
during one is swallowed, as in the code; what is drawn is in `Model/Scope` and `Model/Plot`. Ctrl-C and other exceptions arrive at
observations only, not between two statements of the manager.

## Which code is modelled

Modules of `Verif/Model` which cite each file. Of 420 functions, the following are cited by fewer than half of their lines; everything else is modelled.

| File | Modules |
|---|---|
| `glompo/_version.py` | nothing |
| `glompo/benchmark_fncs.py` | `Benchmarks` |
| `glompo/common/corebase.py` | `Combi`, `Nested` |
| `glompo/common/helpers.py` | `Basic`, `DeepSize`, `Headers`, `Helpers`, `HuntersReal`, `Names`, `Nested`, `SplitLogs`, `Summary`, `Trials`, `WorkDir` |
| `glompo/common/namedtuples.py` | `Basic`, `DeepSize`, `Helpers`, `Manager`, `Restart` |
| `glompo/common/wrappers.py` | `Attributes`, `Manager`, `Names`, `NevergradSave`, `OldResults` |
| `glompo/convergence/basechecker.py` | nothing |
| `glompo/convergence/fmax.py` | `Convergence`, `Criterion`, `Settings` |
| `glompo/convergence/ftarget.py` | `Convergence`, `Criterion` |
| `glompo/convergence/nconv.py` | `Convergence`, `Criterion`, `Settings` |
| `glompo/convergence/nkills.py` | `Convergence`, `Criterion`, `Settings` |
| `glompo/convergence/nkillsafterconv.py` | `Convergence`, `Criterion` |
| `glompo/convergence/omax.py` | `Convergence`, `Criterion`, `Settings` |
| `glompo/convergence/tmax.py` | `Convergence`, `Criterion`, `Sessions`, `Settings` |
| `glompo/core/_backends.py` | `Names`, `OldResults`, `Queue`, `QueueConc`, `Redirect` |
| `glompo/core/checkpointing.py` | `Checkpoint`, `CheckpointSeries`, `Interventions` |
| `glompo/core/function.py` | nothing |
| `glompo/core/manager.py` | `Attributes`, `Basic`, `Checkpoint`, `CheckpointSeries`, `Handshake`, `Headers`, `Hunt`, `Interventions`, `LoadCheck`, `LogAttributes`, `Manager`, `Movie`, `Names`, `OldResults`, `ParamsWrap`, `Plot`, `Queue`, `Resources`, `Restart`, `Rollback`, `Sessions`, `Setup`, `Spawn`, `Status`, `Summary`, `TaskSave` |
| `glompo/core/optimizerlogger.py` | `Attributes`, `Basic`, `DeepSize`, `FileLogger`, `GeneratorsReal`, `Headers`, `LogAttributes`, `Logger`, `Manager`, `Names`, `Plot`, `PlotReal`, `Rollback`, `Trials` |
| `glompo/core/scope.py` | `Attributes`, `Basic`, `Manager`, `Movie`, `OldResults`, `Scope` |
| `glompo/generators/annealing.py` | `AnnealGen` |
| `glompo/generators/basegenerator.py` | nothing |
| `glompo/generators/basinhopping.py` | `GeneratorsReal` |
| `glompo/generators/best.py` | `Generators`, `Settings` |
| `glompo/generators/exploit_explore.py` | `Basic`, `Generators`, `GeneratorsReal`, `Settings` |
| `glompo/generators/peterbation.py` | `Generators`, `Settings` |
| `glompo/generators/random.py` | `Generators`, `Optimizer`, `RandomOpt`, `Selectors`, `Settings` |
| `glompo/generators/single.py` | `Generators`, `Settings` |
| `glompo/hunters/basehunter.py` | nothing |
| `glompo/hunters/bestunmoving.py` | `Basic`, `Float`, `Hunt`, `Hunters`, `Settings` |
| `glompo/hunters/evalsunmoving.py` | `Float`, `Hunt`, `HuntersReal`, `Settings` |
| `glompo/hunters/lastptsinvalid.py` | `Hunt`, `Hunters`, `Settings` |
| `glompo/hunters/min_fcalls.py` | `Hunt`, `Hunters`, `Settings` |
| `glompo/hunters/parameterdistance.py` | `Hunt`, `HuntersReal`, `Settings` |
| `glompo/hunters/stepsize.py` | `Hunt`, `HuntersReal`, `Settings` |
| `glompo/hunters/timeannealing.py` | `Hunt`, `Hunters`, `Settings` |
| `glompo/hunters/type.py` | `Hunt`, `Hunters`, `Settings` |
| `glompo/hunters/valueannealing.py` | `Hunt`, `HuntersReal`, `Settings` |
| `glompo/interfaces/params.py` | `Params`, `ParamsWrap`, `Reweigh` |
| `glompo/opt_selectors/baseselector.py` | `Selectors`, `Spawn` |
| `glompo/opt_selectors/chain.py` | `Selectors`, `Settings` |
| `glompo/opt_selectors/cycle.py` | `Selectors` |
| `glompo/opt_selectors/random.py` | `Generators`, `Optimizer`, `RandomOpt`, `Selectors`, `Settings` |
| `glompo/opt_selectors/spawncontrol.py` | `Selectors` |
| `glompo/optimizers/baseoptimizer.py` | `Attributes`, `CMA`, `GFLS`, `Handshake`, `NevergradSave`, `Optimizer`, `RandomOpt` |
| `glompo/optimizers/cmawrapper.py` | `CMA`, `CMASettings`, `Names`, `Restart` |
| `glompo/optimizers/gfls.py` | `GFLS` |
| `glompo/optimizers/nevergrad.py` | `Nevergrad`, `NevergradSave`, `Restart` |
| `glompo/optimizers/random.py` | `Generators`, `Optimizer`, `RandomOpt`, `Selectors`, `Settings` |
| `glompo/optimizers/scipy.py` | `Nevergrad` |

Not modelled, or only where another definition mentions them (one-line accessors and delegations included):

* `glompo/benchmark_fncs.py`: `LennardJones.__init__` (in part), `LennardJones._common_calc` (in part), `LennardJones.bounds`, `LennardJones.min_x`, `Shubert.__init__`, `Shubert.bounds`, `Shubert.min_x`
* `glompo/common/corebase.py`: `_CombiCore.__call__`, `_CoreBase.last_result`
* `glompo/common/helpers.py`: `glompo_colors`
* `glompo/convergence/basechecker.py`: `BaseChecker.__and__`, `BaseChecker.__init__`, `BaseChecker.__or__`, `_AndChecker.__call__`, `_OrChecker.__call__`
* `glompo/convergence/ftarget.py`: `TargetCost.__init__`
* `glompo/convergence/nkillsafterconv.py`: `KillsAfterConvergence.__init__` (in part)
* `glompo/core/_backends.py`: `CustomThread.__init__`
* `glompo/core/function.py`: `BaseFunction.checkpoint_load`, `BaseFunction.checkpoint_save`, `BaseFunction.detailed_call`, `BaseFunction.headers`
* `glompo/core/manager.py`: `GloMPOManager._log_expected_rows`, `GloMPOManager._setup_system_monitoring`, `GloMPOManager.load_manager`, `GloMPOManager.new_manager`
* `glompo/core/scope.py`: `GloMPOScope._new_writer`, `GloMPOScope.close_fig`, `GloMPOScope.generate_movie`, `GloMPOScope.is_setup`, `MyFFMpegWriter.cleanup`
* `glompo/generators/basegenerator.py`: `BaseGenerator.__init__`
* `glompo/hunters/basehunter.py`: `BaseHunter.__and__`, `BaseHunter.__init__`, `BaseHunter.__or__`, `_AndHunter.__call__`, `_OrHunter.__call__`
* `glompo/interfaces/params.py`: `BaseParamsError.active_names`, `ReaxFFError.from_classic_files`
* `glompo/opt_selectors/baseselector.py`: `BaseSelector.__contains__`
* `glompo/opt_selectors/spawncontrol.py`: `IterSpawnStop.__init__`, `NOptimizersSpawnStop.__init__`
* `glompo/optimizers/baseoptimizer.py`: `BaseOptimizer.__init__` (in part), `BaseOptimizer.is_restart`, `BaseOptimizer.opt_id`, `_MessagingWrapper.__call__`, `_MessagingWrapper.__init__` (in part), `_MessagingWrapper.detailed_call`
* `glompo/optimizers/nevergrad.py`: `Nevergrad.__init__` (in part), `_NevergradCallbacksWrapper.n_iter`
* `glompo/optimizers/scipy.py`: `ScipyOptimizeWrapper.__init__`, `ScipyOptimizeWrapper.callstop`

## Not modelled

matplotlib/HDF5/tar/pickle/psutil internals, OS scheduling beyond the environment arguments, IEEE rounding, the
numerical algorithms of third-party optimizers (CMA-ES, nevergrad, scipy, optsam, the annealing
chain of scipy), logging text.
