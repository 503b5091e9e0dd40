{"id": "C01", "title": "Best iteration is the earliest minimum", "statement": "After any sequence of optimizer registrations, logged evaluations and cache clearings, the logger's overall best iteration is exactly the earliest logged evaluation with the smallest function value, where NaN and +inf values never qualify; if nothing qualifies the best is the initial placeholder with value +inf. The same holds for each single optimizer among its own evaluations.", "quantifier": "every finite history of logger operations, every assignment of values including NaN, +inf and -inf", "why_tests_cant": "The claim ranges over unboundedly long histories and all placements of NaN/inf/ties; a test fixes one history.", "anchors": ["glompo/core/optimizerlogger.py:BaseLogger.put_iteration", "glompo/core/optimizerlogger.py:BaseLogger.get_best_iter", "glompo/core/optimizerlogger.py:BaseLogger.clear_cache"]}
{"id": "C02", "title": "History returned is exactly what was logged", "statement": "get_history of an optimizer and column returns exactly the values logged for that optimizer, in logging order, and nothing of any other optimizer; len of an optimizer equals the number of its evaluations; the total length equals the number of all logged evaluations.", "quantifier": "every history of logger operations in which the optimizer's cache was not cleared, any interleaving of optimizers", "why_tests_cant": "Interleavings of arbitrarily many optimizers cannot be enumerated.", "anchors": ["glompo/core/optimizerlogger.py:BaseLogger.get_history", "glompo/core/optimizerlogger.py:BaseLogger.put_iteration", "glompo/core/optimizerlogger.py:BaseLogger.len"]}
{"id": "C03", "title": "Evaluation numbers are unique and consecutive", "statement": "The call ids given to logged evaluations are 1,2,3,... in logging order over the entire optimization; inside every single optimizer's history they are strictly increasing, and no id occurs twice over all optimizers.", "quantifier": "every history of logger operations", "why_tests_cant": "Uniqueness is a statement about all pairs in all histories.", "anchors": ["glompo/core/optimizerlogger.py:BaseLogger.put_iteration", "glompo/core/manager.py:GloMPOManager._process_results"]}
{"id": "C04", "title": "Memory and file backed logs agree", "statement": "A file backed logger answers get_history with the same list as the purely in-memory logger fed with the same evaluations, whatever the record sizes, whenever flushes happen; and after it is closed, its file holds exactly the logged evaluations of every optimizer in order, also of those whose memory was released.", "quantifier": "every record size, every history of evaluations, flushes and cache releases in which released optimizers log nothing more", "why_tests_cant": "Buffer boundary errors appear only at particular lengths relative to the chunk size; all combinations are infinite.", "anchors": ["glompo/core/optimizerlogger.py:FileLogger.put_iteration", "glompo/core/optimizerlogger.py:FileLogger.flush", "glompo/core/optimizerlogger.py:FileLogger.get_history", "glompo/core/optimizerlogger.py:FileLogger.clear_cache"]}
{"id": "C05", "title": "Results queue loses, reorders and duplicates nothing", "statement": "What a consumer has received, followed by what waits in the queue, followed by what the producer's cache holds, is at every moment exactly the sequence of items whose put, put_nowait or put_incache call succeeded, in call order, each once.", "quantifier": "every queue capacity, every chunk size, every interleaving of put, put_nowait, put_incache, flush and get calls that return normally", "why_tests_cant": "The chunking mode switches at a schedule dependent moment; all interleavings and sizes cannot be tested.", "anchors": ["glompo/core/_backends.py:ChunkingQueue"]}
{"id": "C06", "title": "A failed put leaves the item out", "statement": "If a put raises queue.Full, the item has not been accepted: putting it again later delivers it once. (Violated: in fast mode the item stays in the cache, so retrying delivers it twice.)", "quantifier": "every queue state and every failing put", "why_tests_cant": "Requires the particular state in which the cache mode is active and the queue is full at the time out.", "anchors": ["glompo/core/_backends.py:ChunkingQueue.put"]}
{"id": "C07", "title": "Chunks are bounded and flushing empties the cache", "statement": "With a chunk size of at least one no chunk handed to the consumer has more items than the chunk size (two if the chunk size is one), the cache always stays below that bound, and after flush or a blocking put returns the cache is empty.", "quantifier": "every queue capacity, chunk size >= 1, every sequence of put_nowait, put, flush and get calls", "why_tests_cant": "Bounds must hold for all sizes and schedules.", "anchors": ["glompo/core/_backends.py:ChunkingQueue.put_nowait", "glompo/core/_backends.py:ChunkingQueue.flush", "glompo/core/_backends.py:ChunkingQueue.put"]}
{"id": "C08", "title": "Selectors respect the free slots", "statement": "Whatever a bundled selector returns, the optimizer it proposes needs at most the offered number of worker slots; a request which the cycle selector or the random selector refuses has no effect on their later answers. (A chain selector keeps a stage it moved to during a refused request.)", "quantifier": "every list of configured optimizers and worker counts, every offered slot number, every history of earlier calls, every random draw", "why_tests_cant": "Holds over all configurations and all call histories.", "anchors": ["glompo/opt_selectors/cycle.py:CycleSelector.select_optimizer", "glompo/opt_selectors/chain.py:ChainSelector.select_optimizer", "glompo/opt_selectors/random.py:RandomSelector.select_optimizer"]}
{"id": "C09", "title": "Cycle selector is fair round robin", "statement": "The k-th proposal actually made by the cycle selector (counting from 0) is the configured optimizer number k modulo the number of configured optimizers, no matter how many refused requests happened in between.", "quantifier": "every non-empty configuration and every sequence of slot offers", "why_tests_cant": "Refused requests roll back internal state; all interleavings of refusals must be considered.", "anchors": ["glompo/opt_selectors/cycle.py:CycleSelector.select_optimizer"]}
{"id": "C10", "title": "Chain selector follows its thresholds", "statement": "With thresholds in increasing order and one more optimizer than thresholds, the chain selector only moves forward, by at most one stage per request, never to a stage whose threshold has not been passed, and once requests repeat it settles on the stage equal to the number of thresholds already reached. It is never ahead of that stage. (It may lag behind when several thresholds are passed between two requests, and with as many thresholds as optimizers it fails with an IndexError after the last one instead of stopping.)", "quantifier": "every threshold list, every non-decreasing sequence of evaluation counts at the requests", "why_tests_cant": "Lag and overrun only show for particular jumps of the evaluation counter.", "anchors": ["glompo/opt_selectors/chain.py:ChainSelector"]}
{"id": "C11", "title": "Spawn control stops spawning for good", "statement": "If spawn control forbids a new optimizer, every bundled selector answers False and the manager never asks for or starts another optimizer in this run. The bundled spawn stoppers forbid exactly when the evaluation count (optimizer count) reaches the configured limit, and once they forbid they keep forbidding because the counters never decrease.", "quantifier": "every selector, every controller, every later history of the run", "why_tests_cant": "A statement about every later moment of every run.", "anchors": ["glompo/opt_selectors/spawncontrol.py", "glompo/opt_selectors/baseselector.py", "glompo/core/manager.py:GloMPOManager._setup_new_optimizer", "glompo/core/manager.py:GloMPOManager._fill_optimizer_slots"]}
{"id": "C12", "title": "Combined conditions mean what the boolean expression says", "statement": "Evaluating any nesting of & and | over conditions returns exactly the boolean value of that expression over the conditions' answers.", "quantifier": "every nesting depth and shape, every assignment of answers", "why_tests_cant": "Arbitrary nesting cannot be enumerated.", "anchors": ["glompo/common/corebase.py:_AndCore", "glompo/common/corebase.py:_OrCore"]}
{"id": "C13", "title": "Lazy evaluation and the reported results", "statement": "A condition is evaluated exactly when the documented lazy rule says so (right side of & only after True on the left, right side of | only after False), each at most once and in left to right order per occurrence, and after the call the text with results shows for every condition its answer if it was evaluated and None if not, no stale answers of earlier calls included.", "quantifier": "every nesting of distinct condition objects, every assignment of answers, every earlier call history", "why_tests_cant": "All trees and all histories of earlier calls.", "anchors": ["glompo/common/corebase.py:_CombiCore", "glompo/common/corebase.py:_CoreBase.str_with_result", "glompo/common/corebase.py:_CombiCore.reset"]}
{"id": "C14", "title": "Bundled convergence criteria are exact and stay true", "statement": "Each bundled convergence criterion answers True exactly when its documented threshold is met (evaluations, started optimizers, converged optimizers, kills, target value within tolerance, seconds), and any & / | combination of them that has become true stays true while the run only progresses.", "quantifier": "every combination tree, every pair of an earlier and a later manager state of a run", "why_tests_cant": "All trees and all pairs of states in all runs.", "anchors": ["glompo/convergence/fmax.py", "glompo/convergence/nconv.py", "glompo/convergence/omax.py", "glompo/convergence/nkills.py", "glompo/convergence/ftarget.py", "glompo/convergence/tmax.py"]}
{"id": "C15", "title": "Kills after convergence counts from the moment of convergence", "statement": "KillsAfterConvergence, evaluated after every manager iteration, becomes true exactly when at least the required number of optimizers converged and at least the required number of further kills happened since the first evaluation that saw enough converged optimizers; it then stays true.", "quantifier": "every sequence of manager states at which it is evaluated with non-decreasing counters", "why_tests_cant": "History dependent: the latch position depends on the schedule of evaluations.", "anchors": ["glompo/convergence/nkillsafterconv.py"]}
{"id": "C16", "title": "Hunting criteria decide by their documented rule", "statement": "For every logged history: the minimum-evaluations hunter answers True iff the victim logged at least the configured number; the stagnation hunter answers True iff the victim logged more than the configured number of evaluations and its best value moved by no more than the relative tolerance over them; the invalid-points hunter answers True iff at least the configured number of evaluations exist and the last that many are all non-finite; the type hunter answers True iff the victim's class matches.", "quantifier": "every pair of histories and every setting", "why_tests_cant": "Windows and boundaries over all history lengths.", "anchors": ["glompo/hunters/min_fcalls.py", "glompo/hunters/bestunmoving.py", "glompo/hunters/lastptsinvalid.py", "glompo/hunters/type.py"]}
{"id": "C17", "title": "Annealing hunters never kill the better optimizer", "statement": "The value annealing hunter never condemns a victim whose best value is no larger than the hunter's, whatever the random draw; with the draw in [0,1) it condemns a worse victim exactly when the draw exceeds the documented probability, and that probability lies in [0,1]. The time annealing hunter never condemns when the ratio of evaluations is at or above the critical ratio.", "quantifier": "every pair of histories, every random draw, every setting", "why_tests_cant": "Random draws are a continuum.", "anchors": ["glompo/hunters/valueannealing.py", "glompo/hunters/timeannealing.py"]}
{"id": "C18", "title": "Worker slots are never oversubscribed", "statement": "At every moment of every run the worker slots of the living optimizers sum to at most max_jobs.", "quantifier": "every schedule of optimizer deaths, kills, convergence, every selector that respects the slots it was offered, every max_jobs", "why_tests_cant": "Depends on the asynchronous death of children between manager steps; schedules are unbounded.", "anchors": ["glompo/core/manager.py:GloMPOManager._fill_optimizer_slots"]}
{"id": "C19", "title": "Optimizer ids are 1,2,3,... and never reused", "statement": "The optimizers started get ids 1,2,3,... in starting order, no id is ever given twice, and the reported number of started optimizers equals the number of ids given.", "quantifier": "every run and schedule, also when setup of an optimizer is refused", "why_tests_cant": "A statement about all runs.", "anchors": ["glompo/core/manager.py:GloMPOManager._setup_new_optimizer"]}
{"id": "C20", "title": "The leader is never hunted", "statement": "A hunt never shuts down the optimizer that currently holds the best result, never one that is already finished or killed, never one without logged evaluations; each optimizer is killed at most once.", "quantifier": "every run, every hunting condition (even one that always answers True), every schedule", "why_tests_cant": "Must hold for arbitrary user hunters and any interleaving.", "anchors": ["glompo/core/manager.py:GloMPOManager._start_hunt", "glompo/core/manager.py:GloMPOManager._shutdown_job"]}
{"id": "C21", "title": "Results of killed optimizers are ignored", "statement": "After an optimizer was killed no further evaluation of it is counted, logged or able to become the result of the run, however many of its messages are still queued.", "quantifier": "every run and every content of the queue at the time of the kill", "why_tests_cant": "Late messages are a race; all queue contents must be considered.", "anchors": ["glompo/core/manager.py:GloMPOManager._process_results"]}
{"id": "C22", "title": "The returned result is the best evaluation accepted", "statement": "After every processed message the manager's result is the earliest smallest-valued evaluation accepted so far and names the optimizer that produced it; the result's value never gets worse during a run.", "quantifier": "every sequence of queue messages, values including NaN and inf", "why_tests_cant": "All message sequences.", "anchors": ["glompo/core/manager.py:GloMPOManager._update_best_result", "glompo/core/manager.py:GloMPOManager._process_results"]}
{"id": "C23", "title": "Evaluation count equals accepted evaluations", "statement": "The reported evaluation count is exactly the number of evaluations in the log, which is the number of evaluations received from optimizers not killed at that time.", "quantifier": "every sequence of queue messages and kills", "why_tests_cant": "All message sequences.", "anchors": ["glompo/core/manager.py:GloMPOManager._process_results"]}
{"id": "C24", "title": "Hunts are spaced", "statement": "Hunts happen only when there is a leader, and between two hunts at least hunt_frequency evaluations were accepted; the first one not before hunt_frequency evaluations.", "quantifier": "every sequence of queue messages", "why_tests_cant": "All message sequences.", "anchors": ["glompo/core/manager.py:GloMPOManager._process_results", "glompo/core/manager.py:GloMPOManager._start_hunt"]}
{"id": "C25", "title": "Evaluation budget overshoot is bounded", "statement": "With a MaxFuncCalls(n) criterion and no checkpoint pending, when the run stops because of it fewer than n + 9 + c evaluations have been accepted, where c is the largest chunk received (10 by default): the manager stops at the first iteration boundary at which the budget is reached.", "quantifier": "every sequence of queue messages", "why_tests_cant": "Depends on chunk boundaries relative to the budget.", "anchors": ["glompo/core/manager.py:GloMPOManager._process_results", "glompo/core/manager.py:GloMPOManager.start_manager", "glompo/convergence/fmax.py"]}
{"id": "C26", "title": "Converged, killed and crashed optimizers are counted consistently", "statement": "The number of optimizers counted as converged plus the number killed never exceeds the number started, no optimizer is counted as both and no optimizer is counted twice. (Holds for runs without checkpoints; during a checkpoint a killed optimizer can be counted as converged.)", "quantifier": "every run and schedule", "why_tests_cant": "Racing end signals, kills and exits; unbounded schedules.", "anchors": ["glompo/core/manager.py:GloMPOManager._check_signals", "glompo/core/manager.py:GloMPOManager._inspect_children", "glompo/core/manager.py:GloMPOManager._shutdown_job", "glompo/core/manager.py:GloMPOManager._checkpoint_optimizers"]}
{"id": "C27", "title": "The manager loop ends only for a documented reason", "statement": "The optimization loop ends normally only if the convergence criterion answered True or every optimizer is finished and spawning was stopped; an exception or user interrupt inside the loop never escapes start_manager, all children are told to stop, and a Result carrying the reason is returned in every case.", "quantifier": "every run, every exception point inside the loop", "why_tests_cant": "Crash points are unbounded.", "anchors": ["glompo/core/manager.py:GloMPOManager.start_manager", "glompo/core/manager.py:GloMPOManager._stop_all_children"]}
{"id": "C28", "title": "A finished last optimizer ends the run cleanly", "statement": "When the last optimizer finishes and the selector's spawn control forbids further ones, the run ends with convergence. (Violated: if spawn control only starts to forbid at that moment, the next attempt to fill slots raises 'Not enough worker slots' and the run is reported as crashed.)", "quantifier": "every selector, schedule and moment the spawn control switches", "why_tests_cant": "Needs the coincidence of the last death and the spawn switch.", "anchors": ["glompo/core/manager.py:GloMPOManager._fill_optimizer_slots", "glompo/core/manager.py:GloMPOManager.start_manager"]}
{"id": "C29", "title": "Crash loop guard", "statement": "If optimizers crash as soon as they are started without any evaluation arriving, the manager raises an error after a bounded number of starts instead of spawning for ever; it never raises this error if no optimizer reported a crash.", "quantifier": "every run in which the evaluation count stays constant, every number of starts", "why_tests_cant": "Liveness bound over runs of any length.", "anchors": ["glompo/core/manager.py:GloMPOManager._fill_optimizer_slots"]}
{"id": "C30", "title": "Session bookkeeping", "statement": "Whenever the manager is at rest or taking a checkpoint there are as many session ends recorded as session starts, during a session at most one less, so the used time is always well defined; loading a checkpoint of any earlier session preserves this.", "quantifier": "every sequence of start, checkpoint, crash, load over any number of sessions", "why_tests_cant": "Crash and checkpoint points at any place in any number of sessions.", "anchors": ["glompo/core/manager.py:GloMPOManager.start_manager", "glompo/core/manager.py:GloMPOManager.checkpoint", "glompo/core/manager.py:GloMPOManager.load_checkpoint"]}
{"id": "C31", "title": "Incumbent sharing only informs others of improvements", "statement": "With incumbent sharing the incumbent is sent only to living optimizers other than its finder, and only when it changed. (The latter is violated for an incumbent whose value is exactly 0: it is sent again after every evaluation.)", "quantifier": "every sequence of results", "why_tests_cant": "All sequences and the value zero.", "anchors": ["glompo/core/manager.py:GloMPOManager._update_best_result"]}
{"id": "C32", "title": "Set-up is once only and validates its input", "statement": "A second setup or load on an initialised manager changes nothing. Setup accepts exactly: a callable task, a selector, bounds that are all finite with min < max, a max_jobs that is absent or a positive integer, and otherwise raises without marking the manager initialised.", "quantifier": "every combination of argument values", "why_tests_cant": "All combinations of valid and invalid arguments.", "anchors": ["glompo/core/manager.py:GloMPOManager.setup", "glompo/common/helpers.py:is_bounds_valid"]}
{"id": "C33", "title": "New checkpoint names are fresh", "statement": "With an incrementing name format, the name of a new checkpoint differs from every existing checkpoint of that format in the directory. (Violated from the thousandth checkpoint on: the same name is produced again and the previous checkpoint is overwritten.)", "quantifier": "every directory content", "why_tests_cant": "Only large directory contents show the overflow.", "anchors": ["glompo/core/checkpointing.py:CheckpointingControl.get_name"]}
{"id": "C34", "title": "Produced names match the format", "statement": "Every name produced from a naming format is recognised by matches_naming_format of the same control, so that the retention rule sees it. (Violated for formats with '?' or a backslash, which are not escaped.)", "quantifier": "every naming format string and every point in time", "why_tests_cant": "All format strings.", "anchors": ["glompo/core/checkpointing.py:CheckpointingControl.__init__", "glompo/core/checkpointing.py:CheckpointingControl.get_name", "glompo/core/checkpointing.py:CheckpointingControl.matches_naming_format"]}
{"id": "C35", "title": "Retention keeps the newest checkpoints and deletes nothing else", "statement": "After a successful checkpoint with keep_past = k >= 0, exactly the new checkpoint and the k lexicographically greatest older files matching the format remain; files not matching the format are never touched; with k = -1 nothing is deleted; a failed checkpoint deletes no older one. (Requires that the new name sorts after the old ones; otherwise the new checkpoint itself may be deleted.)", "quantifier": "every directory content, every k, every name", "why_tests_cant": "All directory contents.", "anchors": ["glompo/core/manager.py:GloMPOManager.checkpoint"]}
{"id": "C36", "title": "A failed checkpoint does not destroy an existing one", "statement": "If constructing a checkpoint fails, the checkpoint previously stored under the same name is still there afterwards. (Holds for tar errors; violated for other errors such as a full disk, where the old file is moved away and then deleted.)", "quantifier": "every failure point during construction of the checkpoint", "why_tests_cant": "Crash points inside the file operations.", "anchors": ["glompo/core/manager.py:GloMPOManager.checkpoint"]}
{"id": "C37", "title": "Checkpoint hand-shake is consistent", "statement": "A checkpoint of the optimizers completes only with a restart file for every optimizer that was told to save, all evaluations received before are logged, no optimizer runs while the snapshot is taken, and every optimizer still living is told to either save or continue, so that none is left waiting.", "quantifier": "every interleaving of optimizer replies, deaths and results during the hand-shake", "why_tests_cant": "Distributed protocol; interleavings are unbounded.", "anchors": ["glompo/core/manager.py:GloMPOManager._checkpoint_optimizers", "glompo/core/manager.py:GloMPOManager._toggle_optimizers", "glompo/optimizers/baseoptimizer.py:BaseOptimizer._prepare_checkpoint"]}
{"id": "C38", "title": "Loading never oversubscribes", "statement": "After loading a checkpoint with any (possibly smaller) max_jobs either an error is raised or the restarted optimizers' worker slots sum to at most max_jobs and each has at least one; slots are unchanged when they fit.", "quantifier": "every number of restarts, every slots, every max_jobs", "why_tests_cant": "Arithmetic over all sizes.", "anchors": ["glompo/core/manager.py:GloMPOManager.load_checkpoint"]}
{"id": "C39", "title": "Log rollback removes exactly the future", "statement": "Resuming from a checkpoint taken at evaluation n with a matching log leaves in the log exactly the evaluations numbered at most n, in order, and no optimizer started after the checkpoint; a log of another optimization is rejected and left unchanged.", "quantifier": "every log content and checkpoint", "why_tests_cant": "All logs and cut points.", "anchors": ["glompo/core/manager.py:GloMPOManager.start_manager"]}
{"id": "C40", "title": "Restored task priority", "statement": "A loaded manager uses the task in the checkpoint if it can be restored, otherwise the one built by the task loader, otherwise the one given, and raises an error if none is available; a broken restore never silently yields a different source of lower priority when a higher priority one is available.", "quantifier": "every combination of availability and failures", "why_tests_cant": "All combinations incl. failures inside the loaders.", "anchors": ["glompo/core/manager.py:GloMPOManager.load_checkpoint"]}
{"id": "C41", "title": "Time accounting over sessions", "statement": "The time used before the current session equals the sum of the lengths of all earlier sessions, so that a total time limit (MaxSeconds overall) becomes true exactly when the summed running time over all sessions reaches the limit; down time between sessions does not count.", "quantifier": "every number of sessions and checkpoint times", "why_tests_cant": "Any number of sessions.", "anchors": ["glompo/core/manager.py:GloMPOManager.load_checkpoint", "glompo/convergence/tmax.py"]}
{"id": "C42", "title": "Every evaluation is reported exactly once and then the end", "statement": "An optimizer run under the manager puts exactly one message per function evaluation on the results queue, in order of evaluation, with its id, input, value; then exactly one end marker, also if it raises; nothing follows the end marker.", "quantifier": "every optimizer routine, every number of evaluations, every crash point", "why_tests_cant": "Crash points and arbitrary user code.", "anchors": ["glompo/optimizers/baseoptimizer.py:_MessagingWrapper", "glompo/optimizers/baseoptimizer.py:BaseOptimizer._minimize"]}
{"id": "C43", "title": "Messages from the manager are handled once, in order", "statement": "check_messages processes all pending instructions in the order sent, each with the documented action, and returns their codes; a stop instruction always results in the stop routine being called with the given reason; a pause request is answered by exactly one reply before anything else and ends only by a save or continue instruction.", "quantifier": "every sequence of pending messages", "why_tests_cant": "All message sequences.", "anchors": ["glompo/optimizers/baseoptimizer.py:BaseOptimizer.check_messages", "glompo/optimizers/baseoptimizer.py:BaseOptimizer._prepare_checkpoint"]}
{"id": "C44", "title": "Random optimizer returns the best point it evaluated", "statement": "The random optimizer evaluates at most the configured number of points, all inside the bounds, and returns the first evaluated point with the smallest value; stopping it early returns the best so far.", "quantifier": "every objective, every random sequence in [0,1), every stop point", "why_tests_cant": "Continuum of draws.", "anchors": ["glompo/optimizers/random.py"]}
{"id": "C45", "title": "A restarted random optimizer continues where it stopped", "statement": "Stopping the random optimizer at a checkpoint and restarting it yields the same final result as the uninterrupted run with the same draws. (Violated: the state saved misses the evaluation made just before the checkpoint.)", "quantifier": "every checkpoint position", "why_tests_cant": "All positions.", "anchors": ["glompo/optimizers/random.py", "glompo/optimizers/baseoptimizer.py:BaseOptimizer.checkpoint_save"]}
{"id": "C46", "title": "Bounds validation is exact", "statement": "is_bounds_valid accepts exactly the non-degenerate finite boxes: every pair finite and min < max; otherwise it returns False or raises ValueError depending on the flag.", "quantifier": "every list of bounds including NaN and inf", "why_tests_cant": "All lists.", "anchors": ["glompo/common/helpers.py:is_bounds_valid"]}
{"id": "C47", "title": "Rolling minimum", "statement": "rolling_min of a sequence has the same length and its i-th entry is the smallest of the first i+1 entries; it is non-increasing and idempotent.", "quantifier": "every list of non-NaN numbers", "why_tests_cant": "All lists.", "anchors": ["glompo/common/helpers.py:rolling_min"]}
{"id": "C48", "title": "Parameter grouping is a partition", "statement": "Grouping bounds lists every parameter index exactly once, under its own bound.", "quantifier": "every list of bounds", "why_tests_cant": "All lists.", "anchors": ["glompo/common/helpers.py:bound_group_presenter"]}
{"id": "C49", "title": "Flattening nested sequences", "statement": "unravel yields every non-sequence element of an arbitrarily nested sequence exactly once, in depth-first order.", "quantifier": "every nesting", "why_tests_cant": "All nestings.", "anchors": ["glompo/common/helpers.py:unravel"]}
{"id": "C50", "title": "Distance is a metric up to its scale", "statement": "The squared distance used by hunters is zero iff the points agree, symmetric and satisfies the triangle inequality (as distance).", "quantifier": "every pair of points of equal length", "why_tests_cant": "All points.", "anchors": ["glompo/common/helpers.py:distance"]}
{"id": "C51", "title": "Generated starting points lie inside the bounds", "statement": "Random, single point (given in bounds), perturbation, incumbent (given evaluated points in bounds) and exploit-explore generators return a vector of the right length with every component inside its bounds. (Violated: the incumbent is empty after evaluations of NaN or inf only; exploit-explore raises ValueError whenever the manager calls it.)", "quantifier": "every bounds, every draw, every log of in-bound evaluations", "why_tests_cant": "Continuum of draws and logs.", "anchors": ["glompo/generators/random.py", "glompo/generators/single.py", "glompo/generators/best.py", "glompo/generators/exploit_explore.py", "glompo/generators/peterbation.py"]}
{"id": "C52", "title": "Parameter scaling round trip", "statement": "Converting active parameters from real to scaled values and back (and vice versa) is the identity for every ranges with max different from min, and maps the ranges onto [0,1].", "quantifier": "every range and value", "why_tests_cant": "Continuum.", "anchors": ["glompo/interfaces/params.py:BaseParamsError.convert_parms_real2scaled", "glompo/interfaces/params.py:BaseParamsError.convert_parms_scaled2real"]}
{"id": "C53", "title": "Parameter index conversion round trip", "statement": "Converting an absolute index of an active parameter to the relative one and back is the identity, and every relative index below the number of active parameters corresponds to exactly one active absolute index, in increasing order.", "quantifier": "every activity pattern", "why_tests_cant": "All patterns.", "anchors": ["glompo/interfaces/params.py:BaseParamsError.convert_indices_abs2rel", "glompo/interfaces/params.py:BaseParamsError.convert_indices_rel2abs"]}
{"id": "C54", "title": "Print redirection isolates threads", "statement": "Whatever interleaving threads print in, each registered thread's file contains exactly the text printed by that thread, in order, and the text of unregistered threads goes to the original stream.", "quantifier": "every interleaving of registration, printing and closing", "why_tests_cant": "All interleavings.", "anchors": ["glompo/core/_backends.py:ThreadPrintRedirect"]}
{"id": "C55", "title": "Visualisation truncation and elitism", "statement": "With elitism the plotted trajectory of every optimizer is the running minimum of its values; the horizontal extent never decreases; truncation keeps exactly the points within the window.", "quantifier": "every sequence of plotting events", "why_tests_cant": "All sequences.", "anchors": ["glompo/core/scope.py:GloMPOScope"]}
{"id": "C56", "title": "Largest evaluation", "statement": "The logger's largest_eval is the largest finite function value logged so far, -inf if no finite value was logged.", "quantifier": "every history of logger operations", "why_tests_cant": "All histories incl. NaN and inf placements.", "anchors": ["glompo/core/optimizerlogger.py:BaseLogger.largest_eval", "glompo/core/optimizerlogger.py:BaseLogger.put_iteration"]}
{"id": "C57", "title": "Released histories stay readable", "statement": "After an optimizer's memory has been released, the file backed logger still answers get_history for it with its complete history, read from the file.", "quantifier": "every history of evaluations, flushes, reads and releases", "why_tests_cant": "The failure needs a read after a release; which optimizers are released when depends on the schedule.", "anchors": ["glompo/core/optimizerlogger.py:FileLogger.get_history", "glompo/core/optimizerlogger.py:FileLogger.flush", "glompo/core/optimizerlogger.py:FileLogger.clear_cache"]}
{"id": "C58", "title": "Results queue is first-in-first-out per thread under concurrency", "statement": "With any number of threads calling put, put_nowait, put_incache and flush concurrently and a consumer calling get, for every thread the values received, queued and cached (plus the one it is about to store) are exactly those of its calls, in its order, each once - in particular while the queue switches over to caching.", "quantifier": "every capacity, chunk size, number of threads, interleaving", "why_tests_cant": "The critical interleavings (a thread read the mode flag just before another one switches it) cannot be forced exhaustively.", "anchors": ["glompo/core/_backends.py:ChunkingQueue"]}
{"id": "C59", "title": "Results queue cannot deadlock", "statement": "In every reachable state in which some thread is inside a queue call, either a thread can proceed or the consumer has something to get; at most one thread is inside the cache section.", "quantifier": "every capacity, chunk size, number of threads, interleaving", "why_tests_cant": "Deadlocks depend on rare interleavings.", "anchors": ["glompo/core/_backends.py:ChunkingQueue"]}
{"id": "C60", "title": "Optimizer metadata and messages are kept faithfully", "statement": "For an optimizer whose memory was not released, reading a metadata entry gives the value written last (KeyError if none was), and its messages are those stored for it, in order; operations on other optimizers never change them.", "quantifier": "every history of logger operations", "why_tests_cant": "All histories.", "anchors": ["glompo/core/optimizerlogger.py:BaseLogger.put_metadata", "glompo/core/optimizerlogger.py:BaseLogger.get_metadata", "glompo/core/optimizerlogger.py:BaseLogger.put_message"]}
{"id": "C61", "title": "Value annealing kills with the documented chance", "statement": "A victim whose best value is twice the hunter's (positive) is condemned with probability med_kill_chance.", "quantifier": "every med_kill_chance in (0,1), every pair of histories", "why_tests_cant": "A probability over a continuous draw.", "anchors": ["glompo/hunters/valueannealing.py:ValueAnnealing"]}
{"id": "C62", "title": "Unmoving evaluations hunter", "statement": "With a window of n >= 1: the victim is condemned iff it has n evaluations, the last n are finite and their standard deviation is at most the tolerance times the magnitude of the last; with tolerance 0 iff the last n values are one and the same finite number.", "quantifier": "every history, window and tolerance", "why_tests_cant": "All histories incl. NaN and inf.", "anchors": ["glompo/hunters/evalsunmoving.py:EvaluationsUnmoving"]}
{"id": "C63", "title": "Distance based hunters", "statement": "ParameterDistance condemns iff the victim's last point is within the given fraction of the search space diagonal of the hunter's last point, or with test_all of the last point of any other optimizer; StepSize condemns iff the window exists and the mean step in it is at most the given fraction of the diagonal.", "quantifier": "every history, bounds and setting", "why_tests_cant": "All histories, including those with released memory.", "anchors": ["glompo/hunters/parameterdistance.py:ParameterDistance", "glompo/hunters/stepsize.py:StepSize"]}
{"id": "C64", "title": "A run without failures is not reported as crashed", "statement": "If no plug-in, pipe, file or process operation fails and nobody interrupts, start_manager does not end with the crash or interrupt condition. (Violated: the end marker of an optimizer may be read before its end signal; its storage is released and logging the end raises KeyError.)", "quantifier": "every run and every order in which messages of different channels arrive", "why_tests_cant": "Depends on the relative order of two channels.", "anchors": ["glompo/core/manager.py:GloMPOManager.start_manager", "glompo/core/manager.py:GloMPOManager._process_results", "glompo/core/manager.py:GloMPOManager._check_signals"]}
{"id": "C65", "title": "Memory sizes are shown with the right prefix", "statement": "present_memory shows a number of bytes b <= 1024^9 as a number v and the k-th prefix such that v * 1024^k = b, v <= 1024, and v > 1 if there is a prefix; without prefix no decimals are shown. For larger b it raises IndexError.", "quantifier": "every number of bytes and number of digits", "why_tests_cant": "Boundaries at every power of 1024.", "anchors": ["glompo/common/helpers.py: present_memory"]}
{"id": "C66", "title": "A failed checkpoint leaves nothing behind", "statement": "If constructing a checkpoint fails, afterwards the directory of checkpoints and the history of checkpoints are as before, and the manager goes on or raises according to raise_checkpoint_fail. (Violated: a failed compression leaves a broken archive under the new name; a failed attempt to overwrite drops the restored checkpoint from the history; after errors other than CheckpointingError the history lists a checkpoint that does not exist.)", "quantifier": "every directory content, history and failure point", "why_tests_cant": "Failure points cannot be enumerated by tests of the happy path.", "anchors": ["glompo/core/manager.py:GloMPOManager.checkpoint"]}
{"id": "C67", "title": "Forced terminations only where allowed", "statement": "The manager forcibly terminates an optimizer for not responding only if forced terminations were allowed, the optimizers run as processes, and the optimizer was started by it and not killed by a hunt.", "quantifier": "every schedule of messages, deaths and clock readings", "why_tests_cant": "Depends on timing and on the history of kills.", "anchors": ["glompo/core/manager.py:GloMPOManager._inspect_children"]}
{"id": "C68", "title": "Failures of optimizers are reported", "statement": "An optimizer which fails with an exception sends the manager a message about it before its end marker and passes the exception on; an interrupt or a pipe closed by the manager ends it quietly, with only the end marker.", "quantifier": "every optimizer routine, every moment of failure", "why_tests_cant": "User code may fail anywhere.", "anchors": ["glompo/optimizers/baseoptimizer.py:BaseOptimizer._minimize"]}
{"id": "C69", "title": "Exploit-explore blends from random to evaluated points", "statement": "The exploit-explore generator returns a point the fraction (f_calls / max_f_calls) ** focus of the way from a random point to the best point of an existing optimizer, an evaluated point from max_f_calls on. (Violated: with one optimizer, or equally good ones, the point stays random.)", "quantifier": "every log, draw, number of evaluations and setting", "why_tests_cant": "Continuum of draws; the roulette selection has many degenerate logs.", "anchors": ["glompo/generators/exploit_explore.py:ExploitExploreGenerator"]}
{"id": "C70", "title": "Basin hopping starts near a known minimum", "statement": "Before any evaluation is below infinity the basin hopping generator returns a random point in the bounds; afterwards a point within the step size of the best point of an optimizer, chosen by the Metropolis rule. The step size starts at max_step_size and is adapted every interval-th optimizer towards the target acceptance rate. (Violated: the step size may exceed max_step_size, the point may leave the bounds, a draw of exactly 0 fails.)", "quantifier": "every log, draw, setting and sequence of calls", "why_tests_cant": "Depends on draws and on the whole history of calls.", "anchors": ["glompo/generators/basinhopping.py:BasinHoppingGenerator"]}
{"id": "C71", "title": "The log is seamless over resumptions", "statement": "However often an optimization with a log file is interrupted and resumed from its latest checkpoint, the log file finally holds every evaluation which was not undone by a resumption exactly once, numbered consecutively from 1, as if there had been a single session. (Violated: evaluations that arrive while the checkpoint is taken are counted by the manager but missing in the saved log, so numbers repeat.)", "quantifier": "every sequence of log operations, checkpoints and resumptions", "why_tests_cant": "Needs all interleavings of sessions and the relation between three saved states.", "anchors": ["glompo/core/manager.py:GloMPOManager.start_manager", "glompo/core/manager.py:GloMPOManager.checkpoint", "glompo/core/optimizerlogger.py:FileLogger"]}
{"id": "C72", "title": "Parameters are stored where they belong", "statement": "set_parameters gives each active parameter (or, with full, each parameter) the value passed for it, converted from scaled space if so asked, changes no other parameter and no range or activity, and warns exactly if a value lies outside its own bounds.", "quantifier": "every engine, activity pattern, vector, space and value of full", "why_tests_cant": "All patterns and values.", "anchors": ["glompo/interfaces/params.py:BaseParamsError.set_parameters"]}
{"id": "C73", "title": "Toggling changes exactly the parameters named", "statement": "toggle_parameter sets the activity of exactly the parameters named (by position or by name) and nothing else; unknown names are reported and ignored; for ReaxFF, parameters which must never be activated are reported and left alone unless forced.", "quantifier": "every engine, request and setting", "why_tests_cant": "All patterns and requests.", "anchors": ["glompo/interfaces/params.py:BaseParamsError.toggle_parameter", "glompo/interfaces/params.py:ReaxFFError.toggle_parameter"]}
{"id": "C74", "title": "Evaluation of a ParAMS problem is consistent", "statement": "The value optimizers minimise, the residuals and the detailed result agree; the detailed result matches the announced columns; the value is the training error, and infinite (not an exception) when the jobs fail.", "quantifier": "every outcome of engine, jobs, training and validation set, scaled or not", "why_tests_cant": "All combinations of outcomes.", "anchors": ["glompo/interfaces/params.py:BaseParamsError._calculate", "glompo/interfaces/params.py:BaseParamsError.detailed_call", "glompo/interfaces/params.py:BaseParamsError.headers", "glompo/interfaces/params.py:BaseParamsError.resids"]}
{"id": "C75", "title": "Pickle has priority when loading ParAMS data", "statement": "Data set and job collection are loaded from the pickle if there is one, otherwise from the YAML file; if there is neither, loading fails.", "quantifier": "every combination of existing files", "why_tests_cant": "Combinations, and state left by successive loads.", "anchors": ["glompo/interfaces/params.py:_setup_collections_from_params"]}
{"id": "C76", "title": "Classic ReaxFF set up gives proper ranges", "statement": "After setting up from classic files every active parameter has the range from the files with minimum below maximum and starts strictly inside it; parameters without a proper range are inactive.", "quantifier": "every force field and every content of the activity, minimum and maximum files", "why_tests_cant": "All contents.", "anchors": ["glompo/interfaces/params.py:setup_reax_from_classic"]}
{"id": "C77", "title": "A failing optimizer thread is noticed and leaves its files complete", "statement": "The exit code of an optimizer thread is 0 exactly if its routine returned, the error is written to its error file otherwise, and both its output files are closed whatever happens.", "quantifier": "every way a thread can start, be redirected and end", "why_tests_cant": "All combinations of failures.", "anchors": ["glompo/core/_backends.py:CustomThread"]}
{"id": "C78", "title": "The scope draws at the agreed rate and marks at the right place", "statement": "The plot is redrawn once per events_per_flush calls and every redraw gives one frame of the movie; the marks for killed, converged, crashed, paused and checkpointed optimizers sit at the last point of that optimizer; only proper axis ranges are accepted.", "quantifier": "every sequence of calls and every setting", "why_tests_cant": "All sequences.", "anchors": ["glompo/core/scope.py:GloMPOScope"]}
{"id": "C79", "title": "Announced minima of the benchmark functions are right", "statement": "min_fx of a test case is the smallest value the function takes within its bounds, and it takes it at min_x. (Violated by Alpine02, Michalewicz, Rana, Shekel, Shubert and ZeroSum.)", "quantifier": "every dimension, parameter of the function, vector within the bounds and random draw", "why_tests_cant": "A continuum of vectors in every dimension.", "anchors": ["glompo/benchmark_fncs.py"]}
{"id": "C80", "title": "The Lennard-Jones jacobian is the gradient", "statement": "jacobian returns the derivative of the energy along every coordinate of every atom. (Violated unless sigma is 1.)", "quantifier": "every number of atoms, dimension, parameter and configuration of distinct places", "why_tests_cant": "A continuum of configurations; a derivative cannot be tested.", "anchors": ["glompo/benchmark_fncs.py:LennardJones.jacobian"]}
{"id": "C81", "title": "The Lennard-Jones energy is the physical one", "statement": "The energy is the documented sum over pairs, at least -eps per pair, -eps for two atoms at the distance 2^(1/6) sigma, does not change when all atoms move together, and grows without bound when atoms meet. (Violated: 0 for atoms in the same place; a minimum is announced for no cluster in space.)", "quantifier": "every number of atoms, dimension, parameter and configuration", "why_tests_cant": "A continuum of configurations.", "anchors": ["glompo/benchmark_fncs.py:LennardJones"]}
{"id": "C82", "title": "Benchmark functions compute their documented formulas", "statement": "Calling a test case returns the value of the formula in its documentation. (Violated by Deceptive, Levy, Schwefel and Shubert I.)", "quantifier": "every dimension, parameter and vector", "why_tests_cant": "A continuum of vectors in every dimension.", "anchors": ["glompo/benchmark_fncs.py"]}
{"id": "C83", "title": "The CMA optimizer returns the best point it was told", "statement": "minimize returns the best of all points evaluated, also after a restart from a checkpoint; each value is attributed to its own vector; if no value is below infinity the first vector of the last population is returned with value infinity and no success. (Violated: a better point of a population whose evaluation was broken off by a stop is lost; TypeError when resumed after a stop without any finite value.)", "quantifier": "every sequence of populations, values, cancellations, callbacks and manager messages, from a fresh or resumed optimizer", "why_tests_cant": "Unbounded runs and all placements of messages between evaluations.", "anchors": ["glompo/optimizers/cmawrapper.py:CMAOptimizer.minimize", "glompo/optimizers/cmawrapper.py:CMAOptimizer._parallel_map"]}
{"id": "C84", "title": "The CMA optimizer stops when told to and reports success rightly", "statement": "After a stop from the manager or a callback no further population is asked for; without one, and without convergence, minimize goes on; success is reported for finite results unless the last stop was a crash or a termination by the manager. (Violated: a converged run is never a success.)", "quantifier": "every run and every placement of stops", "why_tests_cant": "All schedules of stops relative to evaluations.", "anchors": ["glompo/optimizers/cmawrapper.py:CMAOptimizer.minimize", "glompo/optimizers/cmawrapper.py:CMAOptimizer.callstop"]}
{"id": "C85", "title": "Incumbents are injected into CMA at the agreed rate", "statement": "The incumbent is injected only if injection_frequency is set, only when better than the whole last population, only if more than injection_frequency iterations have passed since the last injection; it is x0 or a solution sent by the manager, and one that stays better than everything found is injected within injection_frequency + 1 iterations. (Violated: a solution sent while the first population is evaluated is lost.)", "quantifier": "every run, frequency and placement of messages", "why_tests_cant": "Unbounded runs; depends on the whole history.", "anchors": ["glompo/optimizers/cmawrapper.py:CMAOptimizer.minimize"]}
{"id": "C86", "title": "GFLS loses and repeats no evaluation", "statement": "In the GFLS optimizer every evaluation asked for is told to the algorithm exactly once with its own residuals, or is still running, whatever order the workers finish in; never more than workers are running. Over resumptions from checkpoints nothing is told twice, and at most workers - 1 evaluations per resumption are given up.", "quantifier": "every number of workers, order of completion, run length, and sequence of checkpoints and resumptions", "why_tests_cant": "All completion orders and unbounded histories.", "anchors": ["glompo/optimizers/gfls.py:GFLSOptimizer.get_evaluation", "glompo/optimizers/gfls.py:GFLSOptimizer.minimize"]}
{"id": "C87", "title": "GFLS stops when told to and returns what it found", "statement": "After a hook, the callback or the manager gives a reason to stop, no further evaluation is asked for; before, the run goes on. minimize returns the best point found. (Violated: the result is always empty with value infinity, and only a stop of the manager can be a success.)", "quantifier": "every run and placement of stops", "why_tests_cant": "All schedules.", "anchors": ["glompo/optimizers/gfls.py:GFLSOptimizer.minimize", "glompo/optimizers/gfls.py:GFLSOptimizer.callstop"]}
{"id": "C88", "title": "Nevergrad ends once and says so once", "statement": "The Nevergrad optimizer ends when a value meets the termination conditions, a callback says so or the manager sends a stop, and tells a manager exactly once, however many evaluations finish afterwards. (Violated: without a manager all conditions are ignored; several callbacks fail; a resumed optimizer fails at its first value.)", "quantifier": "every sequence of values, callbacks and messages", "why_tests_cant": "Unbounded sequences and all placements of stops.", "anchors": ["glompo/optimizers/nevergrad.py:_NevergradCallbacksWrapper", "glompo/optimizers/nevergrad.py:Nevergrad.minimize"]}
{"id": "C89", "title": "The SciPy wrapper passes results and callbacks on", "statement": "The SciPy optimizer returns what SciPy returns, answers SciPy with the last answer of the callbacks, and tells the manager once that it ended. (Violated: success is never passed on.)", "quantifier": "every result and list of answers", "why_tests_cant": "All lists of answers.", "anchors": ["glompo/optimizers/scipy.py:SciPyOptimizer.minimize"]}
{"id": "C90", "title": "Conditions are printed with their structure", "statement": "The formatted text of a combined condition has one basic condition per line, indented by the number of brackets open around it, each closing bracket below its opening one, and no character lost but blanks, line ends and the outermost pair of brackets. (Violated: brackets inside the parameters of a basic condition count as levels; brackets at the ends are removed one by one.)", "quantifier": "every condition tree and all texts", "why_tests_cant": "Unbounded nesting and arbitrary texts.", "anchors": ["glompo/common/helpers.py:nested_string_formatting", "glompo/common/corebase.py"]}
{"id": "C91", "title": "A session never destroys older results unasked", "statement": "Without overwrite_existing the optimization is refused, with nothing touched, exactly if results of another one are in the working directory; with it they are all removed and nothing else is. A session writes exactly the files of its summary_files level. (Violated: movie and print streams are overwritten unasked; a resumed optimization refuses its own summary; a folder with the name of a result stops the removal half way.)", "quantifier": "every content of the working directory and all settings", "why_tests_cant": "All directories and settings.", "anchors": ["glompo/core/manager.py:GloMPOManager._purge_old_results", "glompo/core/manager.py:GloMPOManager._save_log"]}
{"id": "C92", "title": "The plot shows every optimizer's evaluations and ending", "statement": "The plot of trajectories has one curve per optimizer through exactly its evaluations at their numbers in the whole optimization and the marker of its ending; the logarithmic scale is used only for values of one sign which differ by more than 1e5 and keeps their order. (Violated: Nevergrad's convergence gets no marker; a scale asked for with mixed signs turns the order round.)", "quantifier": "every sequence of logged evaluations and endings", "why_tests_cant": "Unbounded histories, all values.", "anchors": ["glompo/core/optimizerlogger.py:BaseLogger.plot_trajectory", "glompo/core/manager.py:GloMPOManager._save_log"]}
{"id": "C93", "title": "No evaluation is lost on resuming", "statement": "A manager loaded from a checkpoint knows all evaluations accepted before the checkpoint was complete; its result is never worse than the one in the checkpoint. (Violated: evaluations accepted while a checkpoint is taken are counted and may be the result, but are not in the log saved; after loading, the result can get worse.)", "quantifier": "every chain of runs and resumptions, all schedules", "why_tests_cant": "Depends on which evaluations are still in the queue while a checkpoint is taken.", "anchors": ["glompo/core/manager.py:GloMPOManager.checkpoint", "glompo/core/manager.py:GloMPOManager.load_checkpoint"]}
{"id": "C94", "title": "Optimizers shut down stay shut down after resuming", "statement": "An optimizer shut down before a checkpoint is not continued by the manager loaded from it; in any case nothing it evaluates afterwards is accepted, and each optimizer is started at most once by each manager. (Violated: an optimizer shut down which has not stopped yet is saved and started again.)", "quantifier": "every chain of runs and resumptions, all schedules", "why_tests_cant": "A race between the end of an optimizer and a checkpoint.", "anchors": ["glompo/core/manager.py:GloMPOManager._checkpoint_optimizers", "glompo/core/manager.py:GloMPOManager.load_checkpoint", "glompo/core/manager.py:GloMPOManager.start_manager"]}
{"id": "C95", "title": "Every optimizer in a checkpoint is continued", "statement": "A manager loaded from a checkpoint whose run ends regularly has started again every optimizer in the checkpoint which could be rebuilt.", "quantifier": "every chain of runs and resumptions, all schedules", "why_tests_cant": "All numbers of optimizers and all schedules.", "anchors": ["glompo/core/manager.py:GloMPOManager.load_checkpoint", "glompo/core/manager.py:GloMPOManager.start_manager"]}
{"id": "C96", "title": "No evaluation is left behind when the optimization is over", "statement": "What the optimizers put on the results queue is processed in order and once; when the optimization ends because all optimizers have ended and nothing stops it, every evaluation reported has been counted, logged and considered for the result. (Violated: processing stops after ten accepted results per turn; if the last optimizer ends with more than that in the queue, the rest is thrown away.)", "quantifier": "every run and every chain of resumptions, all schedules, all queue contents", "why_tests_cant": "A race between the end of the last optimizer and the emptying of the queue.", "anchors": ["glompo/core/manager.py:GloMPOManager._process_results", "glompo/core/manager.py:GloMPOManager._stop_all_children", "glompo/core/manager.py:GloMPOManager.start_manager"]}
{"id": "C97", "title": "Every optimizer has its own complete log", "statement": "With SplitOptimizerLogs, the file of an optimizer holds all its messages of the logger's level, each once, in order, and nobody else's; the console gets them too exactly if propagate is set. (Violated: messages before the first one which reaches the level of the handler with the filter are lost, a traceback in the first message is lost if no formatter is given, and a second manager in the process destroys and doubles.)", "quantifier": "all sequences of messages of all optimizers, all levels, existing files", "why_tests_cant": "Depends on the order of messages of different levels over the whole history.", "anchors": ["glompo/common/helpers.py:SplitOptimizerLogs"]}
{"id": "C98", "title": "Annealing generator: temperatures, new places, counted evaluations", "statement": "Every annealing is made at the temperature prescribed for its generation, between the restart and the initial temperature; it starts from the best known point; the point returned is new; all evaluations made are added to the manager's count; generate returns. (Violated: evaluations of resets are not counted; with narrow bounds the generator never returns.)", "quantifier": "all sequences of generate calls, all outcomes of the annealing chain and of the optimizers, all parameters", "why_tests_cant": "Needs arbitrarily many generations and all outcomes of the random chain.", "anchors": ["glompo/generators/annealing.py:AnnealingGenerator"]}
{"id": "C99", "title": "Every evaluation of every optimizer reaches the log and the result", "statement": "With manager, results queue and optimizers running together: the evaluations the manager accepts of an optimizer are the first ones it made, in order, each once; once its end marker has been read (and it was not shut down) all of them were accepted, its history in the log is exactly what it evaluated, and the final result is at least as good as each of them.", "quantifier": "all task functions and optimizer codes, any number of optimizers, all interleavings, all runs of fresh or resumed managers", "why_tests_cant": "Composition of three concurrent components over all schedules; tests see a few schedules of small runs.", "anchors": ["glompo/core/manager.py:GloMPOManager._process_results", "glompo/core/_backends.py:ChunkingQueue", "glompo/core/optimizerlogger.py:BaseLogger", "glompo/optimizers/baseoptimizer.py:_MessagingWrapper", "glompo/optimizers/baseoptimizer.py:BaseOptimizer._minimize"]}
{"id": "C100", "title": "Optimizers are told to stop only for a reason", "statement": "During a run an optimizer is told to stop (or terminated) only if it was shut down before (by a hunt, or by hand), or was to be ended by force, or the convergence criterion is met while it is running; otherwise stop signals are only sent when the run is being wound up, after which nothing else happens.", "quantifier": "all runs of fresh or resumed managers: all configurations, answers of checkers, hunters and selectors, messages, crash points and interrupts", "why_tests_cant": "An absence property over all histories: a spurious stop signal in one rare branch silently loses an optimizer's remaining work.", "anchors": ["glompo/core/manager.py:GloMPOManager._shutdown_job", "glompo/core/manager.py:GloMPOManager._inspect_children", "glompo/core/manager.py:GloMPOManager._stop_all_children", "glompo/core/manager.py:GloMPOManager.checkpoint"]}
{"id": "C101", "title": "Optimizers do only what the manager decided", "statement": "With manager, queue, pipes and optimizers running together: whatever an optimizer carries out for the manager (saving, stopping, continuing after a pause, taking a solution) was decided by the manager for that optimizer in this run, different actions at different decisions and in the same order; a solution it is given was evaluated, with exactly that value, by another optimizer, and was the best in the log when sent; it is stopped only if it was told to.", "quantifier": "all task functions and optimizer codes, any number of optimizers, all interleavings, all runs of fresh or resumed managers", "why_tests_cant": "Composition of concurrent components over all schedules.", "anchors": ["glompo/core/manager.py:GloMPOManager._process_results", "glompo/core/manager.py:GloMPOManager.checkpoint", "glompo/optimizers/baseoptimizer.py:BaseOptimizer.check_messages", "glompo/optimizers/baseoptimizer.py:BaseOptimizer.inject", "glompo/core/optimizerlogger.py:BaseLogger"]}
{"id": "C102", "title": "Ctrl-C ends the optimization", "statement": "If Ctrl-C is pressed at any moment while a manager without visualisation is optimizing, from then on nothing happens but stop signals to optimizers and the end of processes: nothing is started, evaluations are not taken any more, no plug-in is asked, no checkpoint written; the run ends with the condition 'User Interrupt' (or with that of an exception which was already ending it), at once if Ctrl-C is pressed again, and in any case if nothing else goes wrong. start_manager returns a result whenever Ctrl-C is pressed.", "quantifier": "all settings, all runs of fresh or resumed managers, every moment at which the manager looks at its surroundings (the moments at which exceptions can arrive in the model)", "why_tests_cant": "A property of every interruption point of every history; a single handler which catches too much loses the keypress only if it arrives there.", "anchors": ["glompo/core/manager.py:GloMPOManager.start_manager", "glompo/core/manager.py:GloMPOManager._stop_all_children", "glompo/common/wrappers.py:catch_user_interrupt", "glompo/core/scope.py:GloMPOScope"]}
{"id": "C103", "title": "The ParAMS optimizer minimizes what it is given", "statement": "Every call minimize(function, x0, bounds, workers) of a GlompoParamsWrapper minimizes the given function within the given bounds, with as many jobs as the constructor was given (max_jobs) or else workers, and returns point and value of the earliest best evaluation; success tells whether there is one.", "quantifier": "all keyword arguments of the constructor, all functions, bounds and workers, all sequences of calls, all runs of the manager", "why_tests_cant": "The wrapper carries a manager from call to call; what a call does depends on the whole history of calls and on how each run ended.", "anchors": ["glompo/interfaces/params.py:GlompoParamsWrapper.minimize", "glompo/interfaces/params.py:GlompoParamsWrapper.__init__", "glompo/core/manager.py:GloMPOManager.setup", "glompo/core/manager.py:GloMPOManager.start_manager"]}
{"id": "C104", "title": "Checkpoints keep the attributes of optimizers, log, plot and manager", "statement": "What a checkpoint saves of an object is restored in the new session: the public attributes of every optimizer (and those it asks for by name), the statistics of the log, the state of the plot and all settings of the manager, callable ones included; workers, pipes and log handles are those of the new session. What cannot be saved makes the checkpoint fail instead of being left out.", "quantifier": "all objects with any attributes, all filters of names asked for by an optimizer, all new objects they are loaded into", "why_tests_cant": "Objects are dumped by filters over their attributes: what is kept depends on the names and kinds of attributes of classes which users write.", "anchors": ["glompo/optimizers/baseoptimizer.py:BaseOptimizer.checkpoint_save", "glompo/optimizers/baseoptimizer.py:BaseOptimizer.checkpoint_load", "glompo/core/optimizerlogger.py:BaseLogger.checkpoint_save", "glompo/core/scope.py:GloMPOScope.checkpoint_save", "glompo/core/manager.py:GloMPOManager._checkpoint_manager"]}
{"id": "C105", "title": "Resuming without the log file starts a new one", "statement": "If the log file glompo_log.h5 is not found when a checkpoint is resumed, logging continues into a new file; if it is there, the log continues with all groups and tables found in it.", "quantifier": "all logs of any length, all files, with and without the file", "why_tests_cant": "The log is an object put together from a dump and from what opening the file adds; whether it is complete depends on both.", "anchors": ["glompo/core/optimizerlogger.py:FileLogger.open", "glompo/core/optimizerlogger.py:BaseLogger.checkpoint_load", "glompo/core/manager.py:GloMPOManager.load_checkpoint", "glompo/core/manager.py:GloMPOManager.start_manager", "docs/components/checkpointing.rst"]}
{"id": "C106", "title": "A checkpoint keeps the task, or says that it does not", "statement": "The task is pickled into the checkpoint; failing that its checkpoint_save is called; failing that the checkpoint is made without it and a warning is logged. On loading, a pickled task is used again whatever else is given, a task saved by itself is what the loader makes of it, and without any task loading fails.", "quantifier": "all tasks, all ways pickling and checkpoint_save can end, all settings, all arguments of load_checkpoint", "why_tests_cant": "Tasks are the user's objects: how saving them can fail is not a finite list.", "anchors": ["glompo/core/manager.py:GloMPOManager._checkpoint_task", "glompo/core/manager.py:GloMPOManager.checkpoint", "glompo/core/manager.py:GloMPOManager.load_checkpoint", "docs/components/checkpointing.rst"]}
{"id": "C107", "title": "Stop files stop the optimizers they name and no others", "statement": "A file STOP_x in the working directory makes the manager stop optimizer x, with any number of leading zeros in x. Exactly the living optimizers named are sent the stop message, each once; one file is removed for each, and nothing else is. No request is lost, and nobody is stopped more often than requested.", "quantifier": "all directories, all names, all orders in which files are listed, all interleavings of the user's, the manager's and the optimizers' actions over any number of runs", "why_tests_cant": "The files appear at any moment of a run, in any number and under any name, and runs follow one another in the same directory.", "anchors": ["glompo/core/manager.py:GloMPOManager._is_manual_shutdowns", "glompo/core/manager.py:GloMPOManager._shutdown_job", "docs/userinterventions.rst"]}
{"id": "C108", "title": "A file CHKPT makes one checkpoint", "statement": "A file CHKPT in the working directory makes the manager build one checkpoint and is removed. The settings of the run are used; without any, the defaults are used, the checkpoint appears in the working directory and the run has no settings afterwards, as before. No request is lost or carried out twice.", "quantifier": "all directories, settings and interleavings, over any number of runs", "why_tests_cant": "The file can appear at any moment of a run, and the checkpoint can fail in any way.", "anchors": ["glompo/core/manager.py:GloMPOManager._is_manual_checkpoints", "glompo/core/checkpointing.py:CheckpointingControl.__init__", "docs/userinterventions.rst"]}
{"id": "C109", "title": "The summary file says what happened and can be loaded", "statement": "At the end of a run with summary_files at least 1 the file glompo_manager_log.yml can be loaded by YAML as native Python values, and counters, result, reason of the end, settings, bounds and times are found in it as they are. Whatever the settings are, the run returns its result. write_summary_file works at any time.", "quantifier": "all settings (nested values, classes, objects, numpy values), all results, counters and times, all earlier contents of the file", "why_tests_cant": "Settings are arbitrary objects supplied by the user, and the file is written once, after the whole run.", "anchors": ["glompo/core/manager.py:GloMPOManager._save_log", "glompo/core/manager.py:GloMPOManager.write_summary_file", "glompo/common/helpers.py:unknown_object_presenter", "glompo/common/helpers.py:optimizer_selector_presenter", "glompo/common/helpers.py:generator_presenter", "glompo/common/helpers.py:bound_group_presenter", "docs/outputs.rst"]}
{"id": "C110", "title": "Every optimizer gets the arguments it was configured with", "statement": "Every optimizer the manager starts is created with the class, the arguments, the number of workers and the backend given for it to the selector, and called with the arguments given, however many optimizers were started before it, in whatever order.", "quantifier": "all selectors' elements, dictionaries shared between them or not, all sequences of choices, processes and threads", "why_tests_cant": "An effect on later optimizers depends on the history of choices and on which dictionaries are the same object.", "anchors": ["glompo/opt_selectors/baseselector.py:BaseSelector.__init__", "glompo/core/manager.py:GloMPOManager._setup_new_optimizer"]}
{"id": "C111", "title": "Extra results are found under their names in the log", "statement": "If a task gives headings for the elements of the return of detailed_call, then the log, in memory or in a file, has for each heading a column of this name, with exactly the corresponding elements of the returns of all evaluations in it, in order. Without headings the columns are called result_0, result_1 and so on, with types which suit the first return.", "quantifier": "all headings, all sequences of evaluations of one optimizer among those of others, all values, all moments at which the file is written", "why_tests_cant": "Headings and values are the user's; the order of columns is decided by the names and positions together.", "anchors": ["glompo/core/function.py:BaseFunction.headers", "glompo/common/helpers.py:infer_headers", "glompo/core/manager.py:GloMPOManager._process_results", "glompo/core/optimizerlogger.py:BaseLogger.add_iter_history", "glompo/core/optimizerlogger.py:BaseLogger.put_iteration", "glompo/core/optimizerlogger.py:FileLogger.add_iter_history", "glompo/core/optimizerlogger.py:FileLogger.put_iteration", "glompo/core/optimizerlogger.py:FileLogger.flush"]}
{"id": "C112", "title": "Files are made in the directory asked for, and the working directory comes back", "statement": "The body of `with WorkInDirectory(path)` is executed in this directory, which is made if it does not exist. Afterwards, also after exceptions, the process is in the directory it was in before. Programs with such statements in each other make each file in the directory of the innermost of them.", "quantifier": "all file systems, all programs as bodies, all nestings and exceptions", "why_tests_cant": "The manager and user code run in these bodies; what they do, and where they raise, is not known.", "anchors": ["glompo/common/helpers.py:WorkInDirectory"]}
{"id": "C113", "title": "The summary of resources is about all measurements", "statement": "Averages, deviations and the largest memory in the summary file are those of all measurements made in all sessions; loading checkpoints does not count as a measurement, and without measurements placeholders are given.", "quantifier": "all sequences of sessions and measurements", "why_tests_cant": "Depends on when checkpoints are made and on what is measured.", "anchors": ["glompo/core/manager.py:GloMPOManager._build_status_message", "glompo/core/manager.py:GloMPOManager.load_checkpoint", "glompo/core/manager.py:GloMPOManager._summarise_resource_usage"]}
{"id": "C114", "title": "Resumed optimizers go on with the arguments they were configured with", "statement": "The optimizers of a checkpoint are built again with their ids, classes and workers (fewer if max_jobs is smaller, equally shared and never more than max_jobs together), and are called with the arguments and use the backend they were configured with.", "quantifier": "all configurations of selectors, all choices, all sets of optimizers alive at the checkpoint, all max_jobs", "why_tests_cant": "Which optimizers are alive, and with which arguments, depends on the schedule and on the configuration.", "anchors": ["glompo/core/manager.py:GloMPOManager.load_checkpoint", "glompo/core/manager.py:GloMPOManager._setup_new_optimizer", "glompo/optimizers/cmawrapper.py:CMAOptimizer.minimize", "glompo/optimizers/nevergrad.py:Nevergrad.minimize"]}
{"id": "C115", "title": "Weights are changed for exactly the residuals named", "statement": "reweigh_residuals gives each entry of the data set the (last) new weight passed for it, whether it is named by position, by position from the end or by key, in a sequence or a dictionary; nothing else in the data set changes; a sequence without a new weight is refused and unknown references raise, without an effect. Weight zero deactivates the contribution of an entry and leaves the others as they were.", "quantifier": "all data sets, sequences, dictionaries and weights, all residuals", "why_tests_cant": "All combinations of references to the same entry, and all values of residuals.", "anchors": ["glompo/interfaces/params.py:BaseParamsError.reweigh_residuals", "glompo/interfaces/params.py:BaseParamsError._scale_residuals"]}
{"id": "C116", "title": "Error functions in checkpoints come back as they were saved", "statement": "A ParAMS error function saved with checkpoint_save and loaded with from_params_files has the same data, jobs, parameters, active parameters, validation set and settings, announces the same columns and returns the same values; what save writes can be loaded.", "quantifier": "all error functions, all contents of the directory before, all loaders of ParAMS", "why_tests_cant": "All combinations of settings, and files left by earlier saves.", "anchors": ["glompo/interfaces/params.py:ReaxFFError.checkpoint_save", "glompo/interfaces/params.py:ReaxFFError.from_params_files", "glompo/interfaces/params.py:XTBError.checkpoint_save", "glompo/interfaces/params.py:XTBError.from_params_files", "glompo/interfaces/params.py:BaseParamsError.save"]}
{"id": "C117", "title": "The log file of a run holds exactly the accepted evaluations", "statement": "An optimization which logs to a file ends with a file that has, for every optimizer of which evaluations were accepted, exactly these, in order and with their evaluation numbers, also if the optimizer had ended and its memory was released long before; no call of the log fails in the course; and the optimization takes the same decisions as with the log kept in memory. (Violated for the decisions: an optimizer which has sent its last message still counts as having a history, which cannot be read; the next hunt fails with KeyError.)", "quantifier": "all settings, all runs of a manager set up afresh, all record sizes, all flushes and reads in between", "why_tests_cant": "Which optimizers have been released at a flush, a hunt or the end depends on the schedule and on the sizes of records.", "anchors": ["glompo/core/manager.py:GloMPOManager._process_results", "glompo/core/manager.py:GloMPOManager._start_hunt", "glompo/core/optimizerlogger.py:FileLogger.put_iteration", "glompo/core/optimizerlogger.py:FileLogger.clear_cache", "glompo/core/optimizerlogger.py:FileLogger.has_iter_history", "glompo/core/optimizerlogger.py:FileLogger.get_history", "glompo/core/optimizerlogger.py:FileLogger.close"]}
{"id": "C118", "title": "Status messages tell the state of the run", "statement": "At every moment of an optimization the status message can be built, and it gives: the number of optimizers running and the worker slots they take, out of those there are; the number of evaluations accepted, in groups of three digits; for each running optimizer with logged evaluations the value of the last one, in the order of the optimizers' ids; and the best value found. (Violated with a log file: as soon as an optimizer has sent its last message and its process still runs, building the message raises KeyError and the optimization ends as crashed.)", "quantifier": "all settings, all runs from any manager which can be started, every moment, both kinds of log", "why_tests_cant": "Which optimizers are alive, released or without evaluations when the message is due depends on the schedule.", "anchors": ["glompo/core/manager.py:GloMPOManager._build_status_message", "glompo/core/manager.py:GloMPOManager.start_manager", "glompo/core/optimizerlogger.py:BaseLogger.get_history", "glompo/core/optimizerlogger.py:FileLogger.get_history"]}
{"id": "C119", "title": "The log tells truly how every optimizer ended", "statement": "The end condition recorded in the log for an optimizer is what happened to it: shut down (by which hunter, or on request), its own last message, ended silently, ended with an error, terminated by force, or still going when the optimization was over; if the run crashed or was interrupted the log says that. When a run is over by itself, every optimizer started has an end condition recorded. The symbol at the end of its curve in the trajectory plot agrees. (Violated: an optimizer which was shut down and reports its end while a checkpoint is taken is recorded and drawn as converged; the end of an optimizer which ends while a checkpoint is taken is never recorded in runs resumed from that checkpoint.)", "quantifier": "all settings, all runs from any manager which can be started, every moment, every checkpoint", "why_tests_cant": "Which optimizers end, when they say so and when they are found dead relative to hunts, checkpoints and convergence depends on the schedule.", "anchors": ["glompo/core/manager.py:GloMPOManager._check_signals", "glompo/core/manager.py:GloMPOManager._inspect_children", "glompo/core/manager.py:GloMPOManager._shutdown_job", "glompo/core/manager.py:GloMPOManager._checkpoint_optimizers", "glompo/core/manager.py:GloMPOManager._stop_all_children", "glompo/core/optimizerlogger.py:BaseLogger.plot_trajectory"]}
{"id": "C120", "title": "An optimization ends when, and only when, the criterion it was given is met", "statement": "Whenever the manager asks its convergence criterion, a criterion built with `&` and `|` from limits on the evaluations, the optimizers created, converged or shut down and from a target value answers True exactly if what has happened so far meets it: the evaluations accepted, the optimizers created, converged and shut down are counted, and the target is compared with the evaluations accepted. After an answer True (of any criterion) neither the criterion nor the selector is asked again in that run, and no optimizer is created or started. If a run ends regularly the criterion is met, or nobody is running and the selector has answered False; the same if the manager says it was converged before it was started, and then nothing was started.", "quantifier": "all settings, all runs from any manager which can be started (no evaluation lost on loading), all combinations of such criteria, every check", "why_tests_cant": "When the counters and the best value change relative to the checks, shutdowns and checkpoints depends on the schedule of the optimizers.", "anchors": ["glompo/core/manager.py:GloMPOManager.start_manager", "glompo/convergence/fmax.py:MaxFuncCalls", "glompo/convergence/omax.py:MaxOptsStarted", "glompo/convergence/nconv.py:NOptConverged", "glompo/convergence/nkills.py:MaxKills", "glompo/convergence/ftarget.py:TargetCost"]}
{"id": "C121", "title": "Optimizers are hunted down only if their true evaluations call for it", "statement": "The log on which hunting conditions judge tells of every optimizer that still has a history in it exactly the values, the points, the number and the best of what it reported, at every moment of a run; the memory of the optimizer in the lead is never released, whoever ends or is shut down. So, with hunting conditions built with `&` and `|` from the bundled ones about evaluations, every optimizer shut down in a hunt deserved it by what it and the leader had reported until then, and the leader itself is never shut down. (Violated after a checkpoint was loaded which lacks an evaluation: the memory of the leader can be released, the log then shows no evaluation of it, and TimeAnnealing condemns an optimizer which it should spare.)", "quantifier": "all settings, all runs from any manager which can be started, all combinations of the conditions, all random numbers, every hunt", "why_tests_cant": "What the log holds at a hunt depends on when messages arrive and when memory is released relative to shutdowns, and on checkpoints.", "anchors": ["glompo/core/manager.py:GloMPOManager._start_hunt", "glompo/core/manager.py:GloMPOManager._process_results", "glompo/core/optimizerlogger.py:BaseLogger", "glompo/hunters/timeannealing.py:TimeAnnealing", "glompo/hunters/bestunmoving.py:BestUnmoving"]}
{"id": "C122", "title": "The criterion used if none is given", "statement": "If no convergence criterion is given, an optimization ends as soon as one optimizer has converged: the check following its convergence answers True, no optimizer is created or started any more; and it ends regularly only if one has converged, or nobody is running and the selector has answered False. KillsAfterConvergence(n_killed, n_converged) in general ends it after n_killed optimizers have been stopped by GloMPO after n_converged optimizers have reached normal convergence. (Violated: kills after the convergence but before the check which sees it are not counted; the optimization goes on.)", "quantifier": "all settings, all runs from any manager which can be started, all thresholds, every check", "why_tests_cant": "When optimizers converge and are shut down between two checks depends on their schedule; the criterion remembers earlier checks.", "anchors": ["glompo/convergence/nkillsafterconv.py:KillsAfterConvergence", "glompo/core/manager.py:GloMPOManager.setup", "glompo/core/manager.py:GloMPOManager.start_manager"]}
{"id": "C123", "title": "The latest checkpoints of a run are kept", "statement": "With keep_past = k >= 0 and names by number or by date and time (as in the default naming format), after any series of checkpoints, some of which may fail, the directory of checkpoints holds exactly the k + 1 latest checkpoints which did not fail, each with what was saved in it; numbers are 0, 1, 2, ... in the order of making; other files are untouched and no successful checkpoint raises an exception. (Violated: two checkpoints in the same second get the same default name, so that the second replaces the first.)", "quantifier": "all numbers and orders of successful and failed checkpoints, all k, all texts around the keys, all contents of the directory", "why_tests_cant": "The rule sorts names, so it depends on all names ever made, on digits, dates and on failures in between.", "anchors": ["glompo/core/manager.py:GloMPOManager.checkpoint", "glompo/core/checkpointing.py:CheckpointingControl.get_name", "glompo/core/checkpointing.py:CheckpointingControl.matches_naming_format"]}
{"id": "C124", "title": "The warning that a loaded optimization cannot be resumed is right", "statement": "load_checkpoint warns that the convergence criterion is already met exactly if it is met by the counters and best value restored and the time used in earlier sessions, for every combination of the bundled criteria; start_manager then returns at once with the restored result, whenever it is called, and starts and evaluates nothing. Without the warning it goes on to run the optimization, unless no optimizer is left and spawning was stopped before. For criteria about what has happened, the warning comes exactly if the whole history over all sessions meets the criterion.", "quantifier": "all combinations of bundled criteria with all settings and memories, all checkpoints and all times between loading and starting", "why_tests_cant": "The criterion is called twice, remembers earlier calls, and is evaluated lazily, with the clock of the session not yet set; tests look at one criterion and one checkpoint.", "anchors": ["glompo/core/manager.py:GloMPOManager.load_checkpoint", "glompo/core/manager.py:GloMPOManager.start_manager", "glompo/convergence/"]}
{"id": "C125", "title": "The attributes of the log file say what happened in the optimization and agree with its tables and the summary", "statement": "When a session with a log file returns, the file was closed, its counters of evaluations, hunts and optimizers killed and ended are those of the whole optimization and equal to those in the summary file, its best record is the best evaluation accepted, its number of evaluations is the one of the rows in its tables, and each attribute has the value of this session's end, whatever the file had before.", "quantifier": "all runs, settings, results, earlier contents of the file and failures while saving", "why_tests_cant": "The attributes are written by two classes at different times, from different counters, after steps which can raise; tests open one file of one run.", "anchors": ["glompo/core/manager.py:GloMPOManager._save_log", "glompo/core/manager.py:GloMPOManager.start_manager", "glompo/core/optimizerlogger.py:FileLogger.close", "glompo/core/optimizerlogger.py:FileLogger.put_manager_metadata"]}
{"id": "C126", "title": "The pictures of parameter values show every optimizer's points", "statement": "plot_optimizer_trials makes one picture per optimizer started, or only that of the optimizer asked for, with one curve per parameter through exactly the values of this optimizer's evaluations in order; no other file is changed. (Violated: after the memory of an optimizer was released, its picture is empty and the last optimizers get none.)", "quantifier": "every sequence of logged evaluations, any number of optimizers and parameters, any files in the directory", "why_tests_cant": "Unbounded histories; the optimizers are counted, not listed, so that what is left out depends on which ones have ended.", "anchors": ["glompo/core/optimizerlogger.py:BaseLogger.plot_optimizer_trials", "glompo/core/optimizerlogger.py:BaseLogger.n_optimizers", "glompo/core/optimizerlogger.py:BaseLogger.get_history"]}
{"id": "C127", "title": "The class reported for an optimizer is the one the selector chose", "statement": "At every moment of every run, also of one resumed from a checkpoint, the class stated for an optimizer in the metadata of the log, in the origin of the result and in the best record is the one the selector named when the id was given out; no id has two classes. TypeHunter, asked about an optimizer with a history, says yes exactly if the selector named its class. (Violated: once the memory of an optimizer was released, the log does not know its class any more, although it may still run.)", "quantifier": "every run, schedule, crash point and chain of checkpoints; every answer of the selector", "why_tests_cant": "Ids, classes and records meet after unbounded histories of starts, ends and resumptions.", "anchors": ["glompo/core/manager.py:GloMPOManager._setup_new_optimizer", "glompo/core/manager.py:GloMPOManager._process_results", "glompo/core/optimizerlogger.py:BaseLogger.add_optimizer", "glompo/hunters/type.py:TypeHunter.__call__"]}
{"id": "C128", "title": "CMA gets the settings it was given", "statement": "Every call of minimize of the CMA optimizer hands the options the strategy knows on as given, all others under vv, makes it silent, does not limit the iterations unless asked to, and uses the bounds of the call; the population size is the one given, else the number of workers if there are several, else 4 + int(3 log d). A sigma0 which is not positive is refused. (Violated: from the second call on the number of workers is no longer used as population size; vv given by a user is lost; the documented names of samplers are ignored.)", "quantifier": "every collection of settings, number of workers, sequence of calls of minimize", "why_tests_cant": "The settings are arbitrary and the object is used for any number of calls.", "anchors": ["glompo/optimizers/cmawrapper.py:CMAOptimizer.__init__", "glompo/optimizers/cmawrapper.py:CMAOptimizer.minimize"]}
{"id": "C129", "title": "A hunt is held when due, and everybody is judged", "statement": "After every accepted evaluation a hunt is held if and only if the holder of the best value is known, there are hunting conditions and at least the set number of evaluations was accepted since the last hunt. The holder of the best value hunts. Every other optimizer which has not ended and has evaluations in the log is put to the conditions exactly once, in the order of starting; those condemned, and nobody else, are shut down and told to stop.", "quantifier": "every manager state without repeated numbers, all answers of hunting conditions and deaths of optimizers at any moment", "why_tests_cant": "Which optimizers exist, have ended or die during the hunt, and what the conditions answer, is arbitrary.", "anchors": ["glompo/core/manager.py:GloMPOManager._process_results", "glompo/core/manager.py:GloMPOManager._start_hunt", "glompo/core/manager.py:GloMPOManager._shutdown_job"]}
{"id": "C130", "title": "The log file's buffer is limited", "statement": "However many evaluations are logged by however many optimizers, the evaluations held back in memory instead of being in the log file never take more than 100 MB, by the logger's own estimate, the size of the first evaluation. (Violated for the evaluations' own sizes: later ones may be larger.)", "quantifier": "every sequence of operations of the file logger none of which raises, every size of evaluations", "why_tests_cant": "The number of evaluations and optimizers is unlimited; the limit must hold after every operation.", "anchors": ["glompo/core/optimizerlogger.py:FileLogger.put_iteration", "glompo/core/optimizerlogger.py:FileLogger.flush", "glompo/core/optimizerlogger.py:FileLogger.clear_cache"]}
{"id": "C131", "title": "Settings which make no sense are refused when given", "statement": "The constructors of the bundled hunters, criteria, generators and of the chain selector accept every setting which makes sense by the documentation (positive numbers of evaluations, fractions and chances between 0 and 1, exactly one positive time limit, finite bounds in the right order, points inside them, as many thresholds as optimizers or one less) and raise an exception for every other, instead of failing or deciding wrongly hours later. (Violated: several constructors look at nothing or at part; integers of numpy are refused by MinFuncCalls. The list of what passes is exact.)", "quantifier": "all constructors, all Python objects as settings, all bounds, points and lists of thresholds", "why_tests_cant": "Settings are arbitrary objects; the boundary of what is accepted must be right for all of them.", "anchors": ["glompo/hunters/min_fcalls.py:MinFuncCalls.__init__", "glompo/hunters/timeannealing.py:TimeAnnealing.__init__", "glompo/hunters/parameterdistance.py:ParameterDistance.__init__", "glompo/hunters/stepsize.py:StepSize.__init__", "glompo/hunters/valueannealing.py:ValueAnnealing.__init__", "glompo/hunters/type.py:TypeHunter.__init__", "glompo/hunters/bestunmoving.py:BestUnmoving.__init__", "glompo/hunters/evalsunmoving.py:EvaluationsUnmoving.__init__", "glompo/hunters/lastptsinvalid.py:LastPointsInvalid.__init__", "glompo/convergence/tmax.py:MaxSeconds.__init__", "glompo/generators/exploit_explore.py:ExploitExploreGenerator.__init__", "glompo/generators/peterbation.py:PerturbationGenerator.__init__", "glompo/generators/single.py:SinglePointGenerator.__init__", "glompo/generators/random.py:RandomGenerator.__init__", "glompo/generators/best.py:IncumbentGenerator.__init__", "glompo/opt_selectors/chain.py:ChainSelector.__init__"]}
{"id": "C132", "title": "Checkpoints do not disturb a Nevergrad optimizer", "statement": "Making a checkpoint of a Nevergrad optimizer does not change what it does afterwards: the same callbacks are called as often, it ends at the same value for the same reason and sends the same messages as if no checkpoint had been made. The file holds neither the running optimizer nor the user's callbacks, and an optimizer loaded from it calls each callback once for every value. (Violated: after a checkpoint which fails, the next value raises; every resumption registers the wrapper with the algorithm once more, so after k resumptions callbacks are called k + 1 times for every value.)", "quantifier": "all sequences of values, callbacks, messages and checkpoints, all chains of resumptions", "why_tests_cant": "Checkpoints fall between any two values, and resumptions can be repeated without limit.", "anchors": ["glompo/optimizers/nevergrad.py:Nevergrad.checkpoint_save", "glompo/optimizers/nevergrad.py:Nevergrad.minimize", "glompo/optimizers/nevergrad.py:_NevergradCallbacksWrapper"]}
{"id": "C133", "title": "The estimated size of an evaluation is its size in memory", "statement": "deepsizeof, by which the log file decides when 100 MB of evaluations are held back, gives the memory of an object with everything in it, so that the limit is one in bytes. (Violated: it never gives more, but nothing is counted for numbers, texts and arrays in lists and tuples; the estimate for an evaluation is the same whatever the size of its point and extras, so evaluations of any size are held back.)", "quantifier": "all objects built from dictionaries, lists, tuples, sets and other objects, of any depth and size; all numbers of evaluations", "why_tests_cant": "Objects are nested without limit and of any size.", "anchors": ["glompo/common/helpers.py:deepsizeof", "glompo/core/optimizerlogger.py:FileLogger.put_iteration"]}
{"id": "C134", "title": "Files, threads and groups of different optimizers are never mixed up", "statement": "The names of an optimizer's thread, print files, restart file, message file, CMA results file and group and table in the log are different for different optimizers, however large their numbers; the number which is read back from a name is the one it was made from. So a checkpoint is accepted exactly if every optimizer which was to write its state did, loading finds exactly those optimizers, a resumed run keeps exactly the groups of the optimizers already started, and the print files of a process hold exactly what it printed since its start, in order. (Across runs: the files of an optimizer which goes on in a resumed run in the same directory are emptied.)", "quantifier": "all optimizer numbers, also of more than four digits; all sets of files, groups and counters; all interleavings of processes which print", "why_tests_cant": "There are infinitely many numbers; tests use a few of one digit, for which the order of spellings and of numbers agree.", "anchors": ["glompo/core/_backends.py:CustomThread.run", "glompo/core/_backends.py:ThreadPrintRedirect.register", "glompo/common/wrappers.py:process_print_redirect", "glompo/core/manager.py:GloMPOManager.load_checkpoint", "glompo/core/manager.py:GloMPOManager.checkpoint", "glompo/core/optimizerlogger.py:FileLogger", "glompo/common/helpers.py:SplitOptimizerLogs", "glompo/optimizers/cmawrapper.py:CMAOptimizer"]}
{"id": "C135", "title": "A movie is recorded in the working directory of its run, under the name which was asked for", "statement": "The recording of a visualised run goes to the file 'outfile' of movie_kwargs (glomporecording.mp4 if there is none) in the working directory of that run, with the ending .mp4; recordings of other runs are not overwritten. (Violated: the dictionary of the user is changed to the full path, so a second manager which is given the same dictionary records over the movie of the first; of names with dots the part after the last dot is lost; a resumed run records over the movie of the first run.)", "quantifier": "all sessions of any number of managers, dictionaries, runs and resumed runs, in any order; all names and directories", "why_tests_cant": "Dictionaries are shared between managers in all kinds of ways.", "anchors": ["glompo/core/scope.py:GloMPOScope.__init__", "glompo/core/scope.py:GloMPOScope.setup_moviemaker", "glompo/core/scope.py:GloMPOScope.load_state"]}
{"id": "C136", "title": "The limit on the number of optimizers is overshot by less than max_jobs", "statement": "Between two checks of the convergence criterion at most max_jobs optimizers are created. Hence with MaxOptsStarted(n), alone or combined with others so that it suffices, a new manager creates at most n - 1 + max_jobs optimizers before it stops; a manager loaded from a checkpoint in which n were created already creates at most max_jobs more, if it creates any. (The limit n itself is not kept: the criterion is only asked after all free slots were filled.)", "quantifier": "all runs of managers new or loaded, up to any moment and however they end; all schedules, messages, exceptions, checkpoints and crashes; all selectors which choose optimizers with at least one worker that fit the free slots", "why_tests_cant": "How many optimizers start between two checks depends on when others end.", "anchors": ["glompo/core/manager.py:GloMPOManager.start_manager", "glompo/core/manager.py:GloMPOManager._fill_optimizer_slots", "glompo/core/manager.py:GloMPOManager._setup_new_optimizer", "glompo/core/manager.py:GloMPOManager._start_new_job", "glompo/convergence/omax.py:MaxOptsStarted"]}
{"id": "C137", "title": "Spawn control and the order of optimizers hold in runs of the manager", "statement": "In a run with one of the selectors of the package every optimizer created is one of those configured and has no more workers than slots were free. With NOptimizersSpawnStop(n) never more than n optimizers are created (unlike MaxOptsStarted(n) this limit is kept exactly), with IterSpawnStop(n) none is created once n evaluations were accepted, and with CycleSelector the optimizer of id i is of the ((i - 1) mod k)-th of the k configured types, however often a request was refused in between. With ChainSelector the types are created in the order configured, none before its threshold is reached. So a manager with a selector of the package never has more workers running than max_jobs.", "quantifier": "all runs of managers, up to any moment and however they end (new or loaded, the selector of a loaded manager being in the state it was in when the checkpoint was made; the order of the chain: new); all schedules, messages, exceptions, checkpoints and crashes; all lists of optimizers; CycleSelector, ChainSelector and RandomSelector in any state and with any random draws; all n", "why_tests_cant": "Which request meets which state of the manager depends on the schedule.", "anchors": ["glompo/core/manager.py:GloMPOManager._fill_optimizer_slots", "glompo/core/manager.py:GloMPOManager._setup_new_optimizer", "glompo/opt_selectors/cycle.py:CycleSelector", "glompo/opt_selectors/chain.py:ChainSelector", "glompo/opt_selectors/random.py:RandomSelector", "glompo/opt_selectors/spawncontrol.py:IterSpawnStop", "glompo/opt_selectors/spawncontrol.py:NOptimizersSpawnStop"]}
{"id": "C138", "title": "Every configured optimizer gets its turn", "statement": "The selector finds none to start only because of the slots other optimizers have taken: with all slots free it always has one (or says that no more are to be started). So every configured optimizer is started some time if the optimization goes on long enough.", "quantifier": "all runs of managers, up to any moment and however they end; all schedules, messages, exceptions, checkpoints and crashes; all lists of optimizers; CycleSelector, ChainSelector and RandomSelector in any state, with any spawn control and any random draws", "why_tests_cant": "That an optimizer never starts cannot be observed in finitely many runs.", "anchors": ["glompo/core/manager.py:GloMPOManager._fill_optimizer_slots", "glompo/core/manager.py:GloMPOManager._setup_new_optimizer", "glompo/opt_selectors/cycle.py:CycleSelector", "glompo/opt_selectors/chain.py:ChainSelector", "glompo/opt_selectors/random.py:RandomSelector"]}
