{
 "claims": [
  {
   "property": "C01",
   "status": "proved",
   "theorems": [
    "Glompo.Props.C01_best_is_earliest_min",
    "Glompo.Props.C01_others"
   ],
   "note": ""
  },
  {
   "property": "C02",
   "status": "proved",
   "theorems": [
    "Glompo.Props.C02_history_exact",
    "Glompo.Props.C02_all_or_nothing"
   ],
   "note": ""
  },
  {
   "property": "C03",
   "status": "proved",
   "theorems": [
    "Glompo.Props.C03_call_ids",
    "Glompo.Props.C03_call_ids_released"
   ],
   "note": ""
  },
  {
   "property": "C56",
   "status": "proved",
   "theorems": [
    "Glompo.Props.C56_largest_eval"
   ],
   "note": ""
  },
  {
   "property": "C04",
   "status": "proved",
   "theorems": [
    "Glompo.Props.C04_file_log_agrees",
    "Glompo.Props.C04_length"
   ],
   "note": ""
  },
  {
   "property": "C57",
   "status": "partial",
   "theorems": [
    "Glompo.Props.C57_released_history_refuted",
    "Glompo.Props.C57_released_history_on_file_partial"
   ],
   "note": "The code violates it: get_history of a released optimizer raises KeyError (deleted write buffer). Proved: the file holds the complete history from the release on."
  },
  {
   "property": "C05",
   "status": "proved",
   "theorems": [
    "Glompo.Props.C05_queue_exact",
    "Glompo.Props.C05_has_cache"
   ],
   "note": ""
  },
  {
   "property": "C06",
   "status": "partial",
   "theorems": [
    "Glompo.Props.C06_failed_put_refuted",
    "Glompo.Props.C06_failed_put_partial"
   ],
   "note": "The code violates it in caching mode (item stays in the cache). Proved for the normal mode; put_nowait and put_incache never fail."
  },
  {
   "property": "C07",
   "status": "proved",
   "theorems": [
    "Glompo.Props.C07_chunk_bounds"
   ],
   "note": ""
  },
  {
   "property": "C58",
   "status": "proved",
   "theorems": [
    "Glompo.Props.C58_concurrent_fifo",
    "Glompo.Props.C58_quiescent"
   ],
   "note": ""
  },
  {
   "property": "C59",
   "status": "proved",
   "theorems": [
    "Glompo.Props.C59_no_deadlock"
   ],
   "note": ""
  },
  {
   "property": "C08",
   "status": "proved",
   "theorems": [
    "Glompo.Props.C08_slots_respected",
    "Glompo.Props.C08_refusal_no_effect",
    "Glompo.Props.C08_parsed"
   ],
   "note": "All three bundled selectors after any history of requests."
  },
  {
   "property": "C09",
   "status": "proved",
   "theorems": [
    "Glompo.Props.C09_round_robin",
    "Glompo.Props.C09_answer"
   ],
   "note": ""
  },
  {
   "property": "C10",
   "status": "partial",
   "theorems": [
    "Glompo.Props.C10_chain_answers",
    "Glompo.Props.C10_stages",
    "Glompo.Props.C10_settles",
    "Glompo.Props.C10_no_failure",
    "Glompo.Props.C10_last_threshold_refuted"
   ],
   "note": "Everything but the optional last threshold: with as many thresholds as optimizers the documented stop of spawning is an IndexError (witness)."
  },
  {
   "property": "C11",
   "status": "proved",
   "theorems": [
    "Glompo.Props.C11_selectors_stop",
    "Glompo.Props.C11_stoppers",
    "Glompo.Props.C11_no_spawn_after_stop"
   ],
   "note": "Selectors, stoppers and manager."
  },
  {
   "property": "C12",
   "status": "proved",
   "theorems": [
    "Glompo.Props.C12_boolean_value"
   ],
   "note": ""
  },
  {
   "property": "C13",
   "status": "proved",
   "theorems": [
    "Glompo.Props.C13_lazy_order",
    "Glompo.Props.C13_reported_results",
    "Glompo.Props.C13_exception",
    "Glompo.Props.C13_iteration",
    "Glompo.Props.C13_shared_object_refuted"
   ],
   "note": "For distinct condition objects; the refuted theorem shows that distinctness is needed for the text."
  },
  {
   "property": "C14",
   "status": "proved",
   "theorems": [
    "Glompo.Props.C14_exact",
    "Glompo.Props.C14_constructible",
    "Glompo.Props.C14_stays_true"
   ],
   "note": ""
  },
  {
   "property": "C15",
   "status": "proved",
   "theorems": [
    "Glompo.Props.C15_kills_after_convergence",
    "Glompo.Props.C14_stays_true",
    "Glompo.Props.C15_order_refuted"
   ],
   "note": "Evaluated at every check, i.e. alone or first in a combination. The refuted theorem: as the second part of & it is not evaluated while the first part is false, and the order of the parts then makes a difference."
  },
  {
   "property": "C16",
   "status": "partial",
   "theorems": [
    "Glompo.Props.C16_min_func_calls",
    "Glompo.Props.C16_best_unmoving",
    "Glompo.Props.C16_best_unmoving_numbers",
    "Glompo.Props.C16_zero_window_refuted",
    "Glompo.Props.C16_last_points_invalid",
    "Glompo.Props.C16_type_hunter",
    "Glompo.Props.C16_settings"
   ],
   "note": "Stagnation hunter: for windows of at least one and histories without nan; a window of 0 is accepted by the constructor and raises ValueError (witness)."
  },
  {
   "property": "C17",
   "status": "proved",
   "theorems": [
    "Glompo.Props.C17_value_annealing",
    "Glompo.Props.C17_time_annealing"
   ],
   "note": "Real arithmetic, no rounding."
  },
  {
   "property": "C50",
   "status": "proved",
   "theorems": [
    "Glompo.Props.C50_euclidean",
    "Glompo.Props.C50_metric"
   ],
   "note": "Real arithmetic."
  },
  {
   "property": "C60",
   "status": "proved",
   "theorems": [
    "Glompo.Props.C60_metadata",
    "Glompo.Props.C60_messages"
   ],
   "note": "In-memory logger."
  },
  {
   "property": "C61",
   "status": "partial",
   "theorems": [
    "Glompo.Props.C61_kill_chance_refuted",
    "Glompo.Props.C61_kill_chance_half"
   ],
   "note": "The code violates it: the probability is 1 - med_kill_chance, proved as the measure of the draws which kill."
  },
  {
   "property": "C62",
   "status": "proved",
   "theorems": [
    "Glompo.Props.C62_evaluations_unmoving",
    "Glompo.Props.C62_zero_tolerance"
   ],
   "note": "numpy's default error handling."
  },
  {
   "property": "C63",
   "status": "partial",
   "theorems": [
    "Glompo.Props.C63_parameter_distance",
    "Glompo.Props.C63_parameter_distance_all_partial",
    "Glompo.Props.C63_parameter_distance_all_refuted",
    "Glompo.Props.C63_step_size",
    "Glompo.Props.C63_step_size_one"
   ],
   "note": "test_all is violated after memory was released (witness); proved without releases."
  },
  {
   "property": "C18",
   "status": "proved",
   "theorems": [
    "Glompo.Props.C18_slots_never_oversubscribed"
   ],
   "note": "All settings, all schedules; managers set up afresh or resumed from checkpoints any number of times; in-memory log."
  },
  {
   "property": "C19",
   "status": "partial",
   "theorems": [
    "Glompo.Props.C19_ids",
    "Glompo.Props.C19_reported_statistics_partial",
    "Glompo.Props.C19_reported_statistics_refuted"
   ],
   "note": "Ids proved; the statistics reported with the result are those of the last accepted evaluation and can be too small at the end (witness). All settings, all schedules; managers set up afresh or resumed from checkpoints any number of times; in-memory log."
  },
  {
   "property": "C20",
   "status": "proved",
   "theorems": [
    "Glompo.Props.C20_leader_never_hunted"
   ],
   "note": "All settings, all schedules; managers set up afresh or resumed from checkpoints any number of times; in-memory log."
  },
  {
   "property": "C21",
   "status": "proved",
   "theorems": [
    "Glompo.Props.C21_killed_are_ignored"
   ],
   "note": "All settings, all schedules; managers set up afresh or resumed from checkpoints any number of times; in-memory log."
  },
  {
   "property": "C22",
   "status": "proved",
   "theorems": [
    "Glompo.Props.C22_result_is_best",
    "Glompo.Props.C22_any_moment",
    "Glompo.Props.C22_any_history",
    "Glompo.Props.C22_crash_refuted"
   ],
   "note": "In histories in which no evaluation was lost on resuming (C93); C22_any_history says what holds otherwise. The refuted theorem: a run cut short by an exception can miss its last evaluation. All settings, all schedules; managers set up afresh or resumed from checkpoints any number of times; in-memory log."
  },
  {
   "property": "C23",
   "status": "proved",
   "theorems": [
    "Glompo.Props.C23_evaluation_count"
   ],
   "note": "All settings, all schedules; managers set up afresh or resumed from checkpoints any number of times; in-memory log."
  },
  {
   "property": "C24",
   "status": "proved",
   "theorems": [
    "Glompo.Props.C24_hunts_spaced"
   ],
   "note": "All settings, all schedules; managers set up afresh or resumed from checkpoints any number of times; in-memory log."
  },
  {
   "property": "C25",
   "status": "proved",
   "theorems": [
    "Glompo.Props.C25_budget_overshoot",
    "Glompo.Props.C25_accepted_within_budget"
   ],
   "note": "All settings, all schedules; managers set up afresh or resumed from checkpoints any number of times; in-memory log."
  },
  {
   "property": "C26",
   "status": "partial",
   "theorems": [
    "Glompo.Props.C26_counts_consistent_partial",
    "Glompo.Props.C26_checkpoint_refuted",
    "Glompo.Props.C26_counters_exact"
   ],
   "note": "The code violates it during checkpoints (witness); proved if no optimizer is counted as finished while a checkpoint is taken. All settings, all schedules; managers set up afresh or resumed from checkpoints any number of times; in-memory log."
  },
  {
   "property": "C27",
   "status": "partial",
   "theorems": [
    "Glompo.Props.C27_loop_ends_for_a_reason",
    "Glompo.Props.C27_children_told_partial",
    "Glompo.Props.C27_children_told_refuted"
   ],
   "note": "Stop signals: if one cannot be sent the remaining ones are not sent (witness). A result is returned in every case but Ctrl-C during the check before the start. All settings, all schedules; managers set up afresh or resumed from checkpoints any number of times; in-memory log."
  },
  {
   "property": "C28",
   "status": "partial",
   "theorems": [
    "Glompo.Props.C28_clean_end_refuted",
    "Glompo.Props.C28_not_enough_slots_partial",
    "Glompo.Props.C28_soon_over_partial"
   ],
   "note": "The code violates it (two witnesses). Proved: once nobody runs and the selector has answered False, the selector is not asked again, nothing is created or started and the criterion is asked at most once more; the error about slots is raised only if nobody runs. All settings, all schedules; managers set up afresh or resumed from checkpoints any number of times; in-memory log."
  },
  {
   "property": "C29",
   "status": "proved",
   "theorems": [
    "Glompo.Props.C29_crash_loop_guard"
   ],
   "note": "The bound is 2*max_jobs+5 starts after the first crash report. All settings, all schedules; managers set up afresh or resumed from checkpoints any number of times; in-memory log."
  },
  {
   "property": "C31",
   "status": "partial",
   "theorems": [
    "Glompo.Props.C31_sharing_partial",
    "Glompo.Props.C31_sharing_refuted"
   ],
   "note": "Violated for value 0 and for a first evaluation which is not a number (witnesses). All settings, all schedules; managers set up afresh or resumed from checkpoints any number of times; in-memory log."
  },
  {
   "property": "C64",
   "status": "partial",
   "theorems": [
    "Glompo.Props.C64_no_failure_no_crash_refuted",
    "Glompo.Props.C64_no_failure_partial",
    "Glompo.Props.C64_crash_causes_partial",
    "Glompo.Props.C64_undisturbed_partial"
   ],
   "note": "The code violates it (witness). Proved: the complete list of causes a crash has in a run in which nothing outside fails, and that without any of them there is none. All settings, all schedules; managers set up afresh or resumed from checkpoints any number of times; in-memory log."
  },
  {
   "property": "C46",
   "status": "proved",
   "theorems": [
    "Glompo.Props.C46_bounds_valid"
   ],
   "note": "Helpers are modelled in Model/Helpers."
  },
  {
   "property": "C47",
   "status": "proved",
   "theorems": [
    "Glompo.Props.C47_rolling_min",
    "Glompo.Props.C47_monotone_idempotent"
   ],
   "note": ""
  },
  {
   "property": "C48",
   "status": "partial",
   "theorems": [
    "Glompo.Props.C48_grouping_partial",
    "Glompo.Props.C48_grouping_refuted"
   ],
   "note": "The code raises KeyError if equal bounds are written both as integers and as floats (witness); proved when they are written alike."
  },
  {
   "property": "C49",
   "status": "proved",
   "theorems": [
    "Glompo.Props.C49_unravel"
   ],
   "note": ""
  },
  {
   "property": "C65",
   "status": "proved",
   "theorems": [
    "Glompo.Props.C65_present_memory"
   ],
   "note": "Exact rational arithmetic; the text of the number is not modelled, only the number, the number of digits and the prefix."
  },
  {
   "property": "C33",
   "status": "partial",
   "theorems": [
    "Glompo.Props.C33_fresh_names_partial",
    "Glompo.Props.C33_archive_fresh_partial",
    "Glompo.Props.C33_thousand_refuted",
    "Glompo.Props.C33_dot_refuted"
   ],
   "note": "Violated from the thousandth checkpoint on and for formats with a dot (witnesses); formats with ? or backslash excluded."
  },
  {
   "property": "C34",
   "status": "partial",
   "theorems": [
    "Glompo.Props.C34_names_match_partial",
    "Glompo.Props.C34_question_mark_refuted",
    "Glompo.Props.C34_thousand_refuted"
   ],
   "note": "Violated for ? in the format and for numbers beyond 999 followed by text (witnesses); backslashes are outside the model."
  },
  {
   "property": "C35",
   "status": "partial",
   "theorems": [
    "Glompo.Props.C35_retention_partial",
    "Glompo.Props.C35_others_untouched",
    "Glompo.Props.C35_failure_deletes_nothing",
    "Glompo.Props.C35_midnight_refuted"
   ],
   "note": "Retention is proved for new names sorting after the older ones; otherwise the new checkpoint may be deleted (witness)."
  },
  {
   "property": "C36",
   "status": "partial",
   "theorems": [
    "Glompo.Props.C36_failure_keeps_old_partial",
    "Glompo.Props.C36_full_disk_refuted"
   ],
   "note": "Violated for errors of the compression which are not tar errors (witness)."
  },
  {
   "property": "C66",
   "status": "partial",
   "theorems": [
    "Glompo.Props.C66_failure_leaves_nothing_partial",
    "Glompo.Props.C66_failure_leaves_nothing_refuted"
   ],
   "note": "The code violates it (three witnesses)."
  },
  {
   "property": "C67",
   "status": "proved",
   "theorems": [
    "Glompo.Props.C67_forced_terminations"
   ],
   "note": "All settings, all schedules; managers set up afresh or resumed from checkpoints any number of times; in-memory log."
  },
  {
   "property": "C42",
   "status": "proved",
   "theorems": [
    "Glompo.Props.C42_every_evaluation_once",
    "Glompo.Props.C42_at_every_moment",
    "Glompo.Props.C42_nothing_else",
    "Glompo.Props.C42_one_evaluation"
   ],
   "note": "Arbitrary user code as a state machine; what the queue refuses (exception) cannot be reported."
  },
  {
   "property": "C43",
   "status": "proved",
   "theorems": [
    "Glompo.Props.C43_in_order",
    "Glompo.Props.C43_in_order_always",
    "Glompo.Props.C43_pause",
    "Glompo.Props.C43_all_at_once",
    "Glompo.Props.C43_pause_ends"
   ],
   "note": "Codes of instructions read during a pause are returned to the pause, not to the outer call."
  },
  {
   "property": "C68",
   "status": "proved",
   "theorems": [
    "Glompo.Props.C68_failure_is_reported",
    "Glompo.Props.C68_interrupt_is_no_failure",
    "Glompo.Props.C68_no_detailed_call"
   ],
   "note": ""
  },
  {
   "property": "C44",
   "status": "proved",
   "theorems": [
    "Glompo.Props.C44_returns_the_best",
    "Glompo.Props.C44_evaluations",
    "Glompo.Props.C44_in_bounds"
   ],
   "note": "Exact arithmetic."
  },
  {
   "property": "C45",
   "status": "partial",
   "theorems": [
    "Glompo.Props.C45_restart_continues_refuted",
    "Glompo.Props.C45_restart_continues_partial",
    "Glompo.Props.C45_forgets_one_partial"
   ],
   "note": "The code violates it (witness)."
  },
  {
   "property": "C51",
   "status": "partial",
   "theorems": [
    "Glompo.Props.C51_random",
    "Glompo.Props.C51_single",
    "Glompo.Props.C51_perturbation",
    "Glompo.Props.C51_incumbent_partial",
    "Glompo.Props.C51_incumbent_refuted",
    "Glompo.Props.C51_exploit_explore_partial",
    "Glompo.Props.C51_exploit_explore_refuted"
   ],
   "note": "Proved for the random, single point and perturbation generators; violated by the incumbent and exploit-explore generators (witness; general refutation)."
  },
  {
   "property": "C69",
   "status": "partial",
   "theorems": [
    "Glompo.Props.C69_exploit_explore_blend_partial",
    "Glompo.Props.C69_parameters",
    "Glompo.Props.C69_evaluated_point_refuted",
    "Glompo.Props.C51_exploit_explore_refuted"
   ],
   "note": "Real arithmetic without rounding. The code violates it for equally good optimizers."
  },
  {
   "property": "C70",
   "status": "partial",
   "theorems": [
    "Glompo.Props.C70_near_a_best_point_partial",
    "Glompo.Props.C70_step_size",
    "Glompo.Props.C70_metropolis",
    "Glompo.Props.C70_acceptance",
    "Glompo.Props.C70_limits_refuted",
    "Glompo.Props.C70_zero_draw_refuted"
   ],
   "note": "Real arithmetic. Bounds, max_step_size and the zero draw are violated (witnesses)."
  },
  {
   "property": "C32",
   "status": "partial",
   "theorems": [
    "Glompo.Props.C32_once_only",
    "Glompo.Props.C32_validation_partial",
    "Glompo.Props.C32_kinds",
    "Glompo.Props.C32_kinds_all",
    "Glompo.Props.C32_configuration",
    "Glompo.Props.C32_no_trace",
    "Glompo.Props.C32_some_job",
    "Glompo.Props.C32_load",
    "Glompo.Props.C32_zero_jobs_refuted",
    "Glompo.Props.C32_single_processor_refuted",
    "Glompo.Props.C32_failed_load_refuted"
   ],
   "note": "Proved except max_jobs=0 (accepted), the default on one processor (0 jobs) and loads that fail half way (manager stays initialised)."
  },
  {
   "property": "C38",
   "status": "proved",
   "theorems": [
    "Glompo.Props.C38_no_oversubscription",
    "Glompo.Props.C38_enough_jobs"
   ],
   "note": "Every checkpoint content, every max_jobs; slots in the checkpoint are at least 1."
  },
  {
   "property": "C40",
   "status": "partial",
   "theorems": [
    "Glompo.Props.C40_priority_partial",
    "Glompo.Props.C40_some_task",
    "Glompo.Props.C40_fallback_refuted",
    "Glompo.Props.C40_broken_file_refuted",
    "Glompo.Props.C40_falsy_task_refuted"
   ],
   "note": "Priority and origin proved; the documented fall-backs after a failure do not happen and a falsy task is replaced (witnesses)."
  },
  {
   "property": "C30",
   "status": "partial",
   "theorems": [
    "Glompo.Props.C30_session_bookkeeping",
    "Glompo.Props.C30_no_exception",
    "Glompo.Props.C30_early_interrupt_refuted"
   ],
   "note": "Proved for every sequence of sessions, checkpoints and endings; an interrupt before the start time is recorded raises IndexError (witness)."
  },
  {
   "property": "C41",
   "status": "partial",
   "theorems": [
    "Glompo.Props.C41_time_limit_partial",
    "Glompo.Props.C41_recorded_sessions_partial",
    "Glompo.Props.C41_clock_change_refuted",
    "Glompo.Props.C41_late_checkpoint_refuted",
    "Glompo.Props.C41_second_start_refuted"
   ],
   "note": "Proved for a steady clock and no checkpoint outside sessions; clock changes, late checkpoints and a second start of the same manager violate it (witnesses)."
  },
  {
   "property": "C39",
   "status": "partial",
   "theorems": [
    "Glompo.Props.C39_rollback_partial",
    "Glompo.Props.C39_other_log",
    "Glompo.Props.C39_second_resume_refuted",
    "Glompo.Props.C39_lost_process_refuted",
    "Glompo.Props.C39_lost_later_refuted",
    "Glompo.Props.C39_stale_group_refuted"
   ],
   "note": "Proved for logs of every length if the later session closed its log and evaluated something (or started no optimizer). After a lost process the file is not rolled back (witnesses)."
  },
  {
   "property": "C71",
   "status": "partial",
   "theorems": [
    "Glompo.Props.C71_seamless_partial",
    "Glompo.Props.C71_checkpoint_in_flight_refuted",
    "Glompo.Props.C71_length_refuted"
   ],
   "note": "Any number of resumptions. Excluded: the C39 cases, evaluations arriving while the checkpoint is taken, optimizers whose first evaluation came between checkpoint and end of session."
  },
  {
   "property": "C37",
   "status": "partial",
   "theorems": [
    "Glompo.Props.C37_nobody_runs",
    "Glompo.Props.C37_all_logged",
    "Glompo.Props.C37_queue_empty",
    "Glompo.Props.C37_none_left",
    "Glompo.Props.C37_all_saved",
    "Glompo.Props.C37_files",
    "Glompo.Props.C37_not_abandoned",
    "Glompo.Props.C37_can_complete_partial",
    "Glompo.Props.C37_hang_refuted",
    "Glompo.Props.C37_left_waiting_refuted",
    "Glompo.Props.C37_run_checkpoint",
    "Glompo.Props.C37_run_signals",
    "Glompo.Props.C37_run_woken"
   ],
   "note": "Every interleaving of manager and any number of optimizers. Safety is proved in full; completion is proved if nobody ends after its reply, and violated otherwise (witnesses: the manager waits for ever, an optimizer is left waiting). C37_run_* say the same of whole runs of the manager model."
  },
  {
   "property": "C52",
   "status": "proved",
   "theorems": [
    "Glompo.Props.C52_round_trip_real",
    "Glompo.Props.C52_round_trip_scaled",
    "Glompo.Props.C52_onto",
    "Glompo.Props.C52_refused",
    "Glompo.Props.C52_bounds"
   ],
   "note": "Exact arithmetic. The ParAMS engine is modelled as the ordered list of its parameters."
  },
  {
   "property": "C53",
   "status": "proved",
   "theorems": [
    "Glompo.Props.C53_abs2rel",
    "Glompo.Props.C53_rel2abs",
    "Glompo.Props.C53_enumerates",
    "Glompo.Props.C53_refused"
   ],
   "note": "Names of parameters are unique (ParAMS)."
  },
  {
   "property": "C72",
   "status": "partial",
   "theorems": [
    "Glompo.Props.C72_active",
    "Glompo.Props.C72_full",
    "Glompo.Props.C72_scaled",
    "Glompo.Props.C72_warning_partial",
    "Glompo.Props.C72_warning_refuted"
   ],
   "note": "Storing is proved; the warning compares with the wrong ranges as soon as a parameter is inactive, and treats bounds as outside (witnesses)."
  },
  {
   "property": "C73",
   "status": "partial",
   "theorems": [
    "Glompo.Props.C73_positions",
    "Glompo.Props.C73_names",
    "Glompo.Props.C73_refused",
    "Glompo.Props.C73_reax_partial",
    "Glompo.Props.C73_reax_unknown",
    "Glompo.Props.C73_all_forbidden_refuted"
   ],
   "note": "Violated if a ReaxFF request names only parameters which must not be activated: IndexError (witness)."
  },
  {
   "property": "C74",
   "status": "partial",
   "theorems": [
    "Glompo.Props.C74_columns_partial",
    "Glompo.Props.C74_columns_refuted",
    "Glompo.Props.C74_one_function",
    "Glompo.Props.C74_values",
    "Glompo.Props.C74_scaling",
    "Glompo.Props.C74_sizes",
    "Glompo.Props.C74_validation_refuted"
   ],
   "note": "Violated for an empty validation set (columns) and when only the validation set fails (training error lost)."
  },
  {
   "property": "C75",
   "status": "partial",
   "theorems": [
    "Glompo.Props.C75_priority_partial",
    "Glompo.Props.C75_priority_refuted"
   ],
   "note": "With both files the YAML file is loaded last."
  },
  {
   "property": "C76",
   "status": "proved",
   "theorems": [
    "Glompo.Props.C76_extras",
    "Glompo.Props.C76_plain"
   ],
   "note": "Exact arithmetic; without the extra files the ranges come from ParAMS."
  },
  {
   "property": "C54",
   "status": "partial",
   "theorems": [
    "Glompo.Props.C54_files_partial",
    "Glompo.Props.C54_stream_partial",
    "Glompo.Props.C54_isolated",
    "Glompo.Props.C54_untouched",
    "Glompo.Props.C54_refuted"
   ],
   "note": "Every interleaving of any number of threads, with buffering and partial flushes. Violated if files are closed while a thread is between the test and the writing in write, or a file is registered twice (witnesses)."
  },
  {
   "property": "C55",
   "status": "partial",
   "theorems": [
    "Glompo.Props.C55_extent",
    "Glompo.Props.C55_window",
    "Glompo.Props.C55_window_counts",
    "Glompo.Props.C55_running_minimum_partial",
    "Glompo.Props.C55_running_minimum_linear_partial",
    "Glompo.Props.C55_refuted"
   ],
   "note": "Extent and window are proved in full; the running minimum without truncation and NaN (witnesses). Logarithm and power are parameters."
  },
  {
   "property": "C77",
   "status": "partial",
   "theorems": [
    "Glompo.Props.C77_exitcode_partial",
    "Glompo.Props.C77_closed",
    "Glompo.Props.C77_refuted"
   ],
   "note": "Violated by exceptions which are not an Exception: exit code 0 (witness)."
  },
  {
   "property": "C78",
   "status": "proved",
   "theorems": [
    "Glompo.Props.C78_redraws",
    "Glompo.Props.C78_marks",
    "Glompo.Props.C78_movie",
    "Glompo.Props.C78_ranges",
    "Glompo.Props.C78_unknown"
   ],
   "note": "Drawing and the movie writer are not modelled; the first redraw comes one call late."
  },
  {
   "property": "C79",
   "status": "partial",
   "theorems": [
    "Glompo.Props.C79_ackley",
    "Glompo.Props.C79_alpine01",
    "Glompo.Props.C79_deceptive",
    "Glompo.Props.C79_easom",
    "Glompo.Props.C79_griewank",
    "Glompo.Props.C79_exp_least_squares",
    "Glompo.Props.C79_levy",
    "Glompo.Props.C79_qing",
    "Glompo.Props.C79_rastrigin",
    "Glompo.Props.C79_rosenbrock",
    "Glompo.Props.C79_stochastic",
    "Glompo.Props.C79_trigonometric",
    "Glompo.Props.C79_styblinski",
    "Glompo.Props.C79_vincent",
    "Glompo.Props.C79_schwefel",
    "Glompo.Props.C79_langermann_partial",
    "Glompo.Props.C79_michalewicz_partial",
    "Glompo.Props.C79_michalewicz5_partial",
    "Glompo.Props.C79_michalewicz10_partial",
    "Glompo.Props.C79_alpine02_partial",
    "Glompo.Props.C79_alpine02_refuted",
    "Glompo.Props.C79_zero_sum_refuted",
    "Glompo.Props.C79_shekel_refuted",
    "Glompo.Props.C79_michalewicz_refuted",
    "Glompo.Props.C79_rana_refuted",
    "Glompo.Props.C79_shubert_refuted"
   ],
   "note": "Real arithmetic. Exact for twelve functions, up to the rounding of the announced constants for three, refuted for six. Langermann up to 0.1, Michalewicz with m = 10 up to 0.001 in two dimensions and 0.002 in five and ten."
  },
  {
   "property": "C80",
   "status": "partial",
   "theorems": [
    "Glompo.Props.C80_jacobian_partial",
    "Glompo.Props.C80_jacobian_default",
    "Glompo.Props.C80_jacobian_refuted"
   ],
   "note": "The result is the gradient divided by sigma."
  },
  {
   "property": "C81",
   "status": "partial",
   "theorems": [
    "Glompo.Props.C81_energy",
    "Glompo.Props.C81_lower_bound",
    "Glompo.Props.C81_translation",
    "Glompo.Props.C81_dimer",
    "Glompo.Props.C81_coincident_refuted",
    "Glompo.Props.C81_minimum_refuted"
   ],
   "note": "Violated for atoms in the same place and for min_fx."
  },
  {
   "property": "C82",
   "status": "partial",
   "theorems": [
    "Glompo.Props.C82_ackley",
    "Glompo.Props.C82_alpine01",
    "Glompo.Props.C82_alpine02",
    "Glompo.Props.C82_easom",
    "Glompo.Props.C82_griewank",
    "Glompo.Props.C82_langermann",
    "Glompo.Props.C82_michalewicz",
    "Glompo.Props.C82_qing",
    "Glompo.Props.C82_rana",
    "Glompo.Props.C82_rastrigin",
    "Glompo.Props.C82_rosenbrock",
    "Glompo.Props.C82_shekel",
    "Glompo.Props.C82_shubert",
    "Glompo.Props.C82_shubert_shift",
    "Glompo.Props.C82_michalewicz_min",
    "Glompo.Props.C82_stochastic",
    "Glompo.Props.C82_styblinski",
    "Glompo.Props.C82_trigonometric",
    "Glompo.Props.C82_vincent",
    "Glompo.Props.C82_zero_sum",
    "Glompo.Props.C82_exp_least_squares",
    "Glompo.Props.C82_deceptive_partial",
    "Glompo.Props.C82_levy_partial",
    "Glompo.Props.C82_schwefel_partial",
    "Glompo.Props.C82_refuted"
   ],
   "note": "Violated for four functions, with the exact difference for three of them."
  },
  {
   "property": "C83",
   "status": "partial",
   "theorems": [
    "Glompo.Props.C83_cma_result_partial",
    "Glompo.Props.C83_cma_checkpoint",
    "Glompo.Props.C83_lowest_value_refuted",
    "Glompo.Props.C83_no_iteration_refuted"
   ],
   "note": "The strategy of the cma package is an arbitrary component. Violated for populations broken off and for resumed runs without any iteration."
  },
  {
   "property": "C84",
   "status": "partial",
   "theorems": [
    "Glompo.Props.C84_cma_stops",
    "Glompo.Props.C84_cma_goes_on",
    "Glompo.Props.C84_cma_success_partial",
    "Glompo.Props.C84_convergence_refuted"
   ],
   "note": "Convergence of the strategy is never reported as a success."
  },
  {
   "property": "C85",
   "status": "partial",
   "theorems": [
    "Glompo.Props.C85_cma_injections",
    "Glompo.Props.C85_cma_incumbent_used_partial",
    "Glompo.Props.C85_first_incumbent_refuted"
   ],
   "note": "A solution sent during the first population is overwritten by x0."
  },
  {
   "property": "C86",
   "status": "proved",
   "theorems": [
    "Glompo.Props.C86_gfls_accounting",
    "Glompo.Props.C86_gfls_resumed"
   ],
   "note": "The optsam algorithm and the function are arbitrary; exceptions of the function are not modelled."
  },
  {
   "property": "C87",
   "status": "partial",
   "theorems": [
    "Glompo.Props.C87_gfls_stops",
    "Glompo.Props.C87_result_refuted",
    "Glompo.Props.C87_success_refuted"
   ],
   "note": "The returned result is always empty."
  },
  {
   "property": "C88",
   "status": "partial",
   "theorems": [
    "Glompo.Props.C88_nevergrad_stop_partial",
    "Glompo.Props.C88_alone_refuted",
    "Glompo.Props.C88_several_refuted",
    "Glompo.Props.C88_resumed_refuted"
   ],
   "note": "Violated stand-alone, with several callbacks and after a resumption."
  },
  {
   "property": "C89",
   "status": "partial",
   "theorems": [
    "Glompo.Props.C89_scipy_callback",
    "Glompo.Props.C89_scipy_result_partial",
    "Glompo.Props.C89_success_refuted"
   ],
   "note": "SciPy itself is a component; success is lost."
  },
  {
   "property": "C90",
   "status": "partial",
   "theorems": [
    "Glompo.Props.C90_layout",
    "Glompo.Props.C90_layout_results",
    "Glompo.Props.C90_characters_kept",
    "Glompo.Props.C90_errors",
    "Glompo.Props.C90_pairs_refuted",
    "Glompo.Props.C90_brackets_refuted"
   ],
   "note": "Names without brackets and line ends; otherwise refuted."
  },
  {
   "property": "C91",
   "status": "partial",
   "theorems": [
    "Glompo.Props.C91_refused",
    "Glompo.Props.C91_protected_partial",
    "Glompo.Props.C91_overwrites",
    "Glompo.Props.C91_levels",
    "Glompo.Props.C91_streams_refuted",
    "Glompo.Props.C91_movie_refuted",
    "Glompo.Props.C91_resumed_refuted",
    "Glompo.Props.C91_folder_refuted"
   ],
   "note": "Violated for movies, print streams and resumed optimizations."
  },
  {
   "property": "C92",
   "status": "partial",
   "theorems": [
    "Glompo.Props.C92_curves",
    "Glompo.Props.C92_markers_partial",
    "Glompo.Props.C92_log_order",
    "Glompo.Props.C92_log_choice",
    "Glompo.Props.C92_best_partial",
    "Glompo.Props.C92_nevergrad_refuted",
    "Glompo.Props.C92_mixed_signs_refuted",
    "Glompo.Props.C92_best_nan_refuted"
   ],
   "note": "Drawing itself is not modelled. With best_fx=True one NaN prevents the plot for all optimizers (C92_best_nan_refuted)."
  },
  {
   "property": "C93",
   "status": "partial",
   "theorems": [
    "Glompo.Props.C93_resume_keeps_evaluations_partial",
    "Glompo.Props.C93_resume_keeps_evaluations_refuted"
   ],
   "note": "What is lost is exactly what was accepted while the checkpoint was taken."
  },
  {
   "property": "C94",
   "status": "partial",
   "theorems": [
    "Glompo.Props.C94_killed_not_continued_partial",
    "Glompo.Props.C94_killed_not_continued_refuted"
   ],
   "note": "It is started again, but ignored."
  },
  {
   "property": "C95",
   "status": "proved",
   "theorems": [
    "Glompo.Props.C95_checkpoint_continued"
   ],
   "note": "Also for chains of resumptions. Attempts to stop the run before the restarts end it otherwise than regularly."
  },
  {
   "property": "C96",
   "status": "partial",
   "theorems": [
    "Glompo.Props.C96_in_order_partial",
    "Glompo.Props.C96_accepted_partial",
    "Glompo.Props.C96_no_evaluation_left_refuted"
   ],
   "note": "Order and completeness up to what remains in the queue; something can remain."
  },
  {
   "property": "C97",
   "status": "partial",
   "theorems": [
    "Glompo.Props.SplitLogs.C97_own_messages_partial",
    "Glompo.Props.SplitLogs.C97_all_messages_partial",
    "Glompo.Props.SplitLogs.C97_propagation",
    "Glompo.Props.SplitLogs.C97_failure",
    "Glompo.Props.SplitLogs.C97_refuted"
   ],
   "note": "What the files hold is proved exactly; complete only if the handler's level does not exceed the logger's."
  },
  {
   "property": "C98",
   "status": "partial",
   "theorems": [
    "Glompo.Props.AnnealGen.C98_cooling",
    "Glompo.Props.AnnealGen.C98_temperature",
    "Glompo.Props.AnnealGen.C98_takes_over",
    "Glompo.Props.AnnealGen.C98_new_place",
    "Glompo.Props.AnnealGen.C98_counted_partial",
    "Glompo.Props.AnnealGen.C98_all_counted_refuted",
    "Glompo.Props.AnnealGen.C98_endless_refuted"
   ],
   "note": "Temperatures, starting points and new places proved; resets are never counted and the loop may be endless."
  },
  {
   "property": "C99",
   "status": "proved",
   "theorems": [
    "Glompo.Props.C99_first_evaluations",
    "Glompo.Props.C99_all_evaluations",
    "Glompo.Props.C99_result",
    "Glompo.Props.C99_history",
    "Glompo.Props.C99_history_grows"
   ],
   "note": "Composes C42, C58, C96, C21, C22 and C23. Calls of put which fail with an exception are excluded. The result part: no evaluation lost on resuming (C93)."
  },
  {
   "property": "C100",
   "status": "proved",
   "theorems": [
    "Glompo.Props.C100_stops_have_a_reason"
   ],
   "note": "`stop i` stands for the stop message or for terminating the process; both appear in the same event."
  },
  {
   "property": "C101",
   "status": "partial",
   "theorems": [
    "Glompo.Props.C101_only_orders",
    "Glompo.Props.C101_decided_by_manager",
    "Glompo.Props.C101_injected_partial",
    "Glompo.Props.C101_injected_refuted",
    "Glompo.Props.C101_stopped"
   ],
   "note": "Violated as long as nothing below infinity was evaluated: then the manager may send the empty solution with value infinity (witness, see C31); proved otherwise. The pipe is assumed to lose or invent nothing and to keep the order."
  },
  {
   "property": "C102",
   "status": "partial",
   "theorems": [
    "Glompo.Props.C102_interrupt_ends_partial",
    "Glompo.Props.C102_interrupt_refuted"
   ],
   "note": "Proved for managers without visualisation from the check before the start on. With visualisation the property is false: the scope's methods swallow Ctrl-C; and Ctrl-C during the check before the start is passed on to the caller without a result."
  },
  {
   "property": "C103",
   "status": "partial",
   "theorems": [
    "Glompo.Props.C103_first_call_partial",
    "Glompo.Props.C103_settings",
    "Glompo.Props.C103_later_calls_partial",
    "Glompo.Props.C103_nothing_evaluated_refuted",
    "Glompo.Props.C103_second_call_refuted",
    "Glompo.Props.C103_other_function_refuted",
    "Glompo.Props.C103_workers_refuted"
   ],
   "note": "Proved for the first accepted call whose run ends regularly. Later calls keep function, bounds and jobs of the first and, if the convergence condition still holds, answer its result again; a run without any qualifying evaluation raises TypeError instead of reporting failure; a call which failed fixes the number of workers."
  },
  {
   "property": "C104",
   "status": "partial",
   "theorems": [
    "Glompo.Props.C104_optimizer_partial",
    "Glompo.Props.C104_scope",
    "Glompo.Props.C104_manager",
    "Glompo.Props.C104_property_refuted",
    "Glompo.Props.C104_callable_refuted",
    "Glompo.Props.C104_missing_module_refuted"
   ],
   "note": "Proved with the exact set of attributes kept. Missing: callable attributes of optimizers are lost; an optimizer class with one more public property without setter is saved and can never be loaded; an ImportError while loading the log leaves the manager without log."
  },
  {
   "property": "C105",
   "status": "partial",
   "theorems": [
    "Glompo.Props.C105_existing_file_partial",
    "Glompo.Props.C105_new_file_refuted",
    "Glompo.Props.C105_file_wanted_refuted"
   ],
   "note": "With the file the log is the one of C71. Without it the loaded log lacks the attributes holding groups and tables, and everything done with it raises AttributeError; the same if a log file is asked for when resuming from a checkpoint made without one."
  },
  {
   "property": "C106",
   "status": "partial",
   "theorems": [
    "Glompo.Props.C106_saving_partial",
    "Glompo.Props.C106_round_trip_partial",
    "Glompo.Props.C106_completed_partial",
    "Glompo.Props.C106_unexpected_error_refuted"
   ],
   "note": "Proved when pickling fails with PickleError only. Any other exception (TypeError for locks and generators) makes the checkpoint fail although the documentation promises to go on without the task, ignores raise_checkpoint_fail, and leaves the name in the history."
  },
  {
   "property": "C107",
   "status": "partial",
   "theorems": [
    "Glompo.Props.C107_documented",
    "Glompo.Props.C107_names",
    "Glompo.Props.C107_look",
    "Glompo.Props.C107_honoured",
    "Glompo.Props.C107_requested",
    "Glompo.Props.C107_ended",
    "Glompo.Props.C107_manager",
    "Glompo.Props.C107_later_optimizer_refuted",
    "Glompo.Props.C107_left_behind_refuted",
    "Glompo.Props.C107_directory_refuted"
   ],
   "note": "Proved for all histories in which removing files and sending messages work. Missing: files for optimizers which are gone, and files whose names mean nothing, are never removed; a file stops optimizers started later, also those of later runs in the directory; a directory of this name ends the run."
  },
  {
   "property": "C108",
   "status": "partial",
   "theorems": [
    "Glompo.Props.C108_made_partial",
    "Glompo.Props.C108_requested",
    "Glompo.Props.C108_honoured",
    "Glompo.Props.C108_where_partial",
    "Glompo.Props.C108_where_refuted",
    "Glompo.Props.C108_settings_refuted"
   ],
   "note": "Proved: one checkpoint for each request, settings kept. Missing: without settings the checkpoint appears where the program was started and not in the working directory; if the checkpoint fails the default settings stay."
  },
  {
   "property": "C109",
   "status": "partial",
   "theorems": [
    "Glompo.Props.C109_values",
    "Glompo.Props.C109_summary_partial",
    "Glompo.Props.C109_counters",
    "Glompo.Props.C109_returns",
    "Glompo.Props.C109_assignment",
    "Glompo.Props.C109_checkpoints",
    "Glompo.Props.C109_on_request_partial",
    "Glompo.Props.C109_settings_unloadable",
    "Glompo.Props.C109_lost_refuted",
    "Glompo.Props.C109_spawn_function_refuted",
    "Glompo.Props.C109_running_refuted",
    "Glompo.Props.C109_silent_refuted"
   ],
   "note": "Proved for settings without tuples, functions and classes without metaclass, and bounds written alike. Missing: with such settings the file cannot be loaded; mixed bounds make the run raise instead of returning its result; the name of a function task, the working directory and several settings are not in the file; writing it during a run raises. Not modelled: psutil data, the text of YAML, aliases."
  },
  {
   "property": "C110",
   "status": "partial",
   "theorems": [
    "Glompo.Props.C110_threads",
    "Glompo.Props.C110_processes_partial",
    "Glompo.Props.C110_backend_refuted"
   ],
   "note": "Proved for threads, and for processes all but the backend. Missing: with processes only the first optimizer made from a dictionary gets the backend given in it; later ones get the default, because the entry is deleted from the user's dictionary."
  },
  {
   "property": "C111",
   "status": "partial",
   "theorems": [
    "Glompo.Props.C111_named_partial",
    "Glompo.Props.C111_inference",
    "Glompo.Props.C111_inferred",
    "Glompo.Props.C111_memory",
    "Glompo.Props.C111_run_headings",
    "Glompo.Props.C111_documented_refuted",
    "Glompo.Props.C111_first_refuted",
    "Glompo.Props.C111_mixed_refuted",
    "Glompo.Props.C111_numpy_refuted"
   ],
   "note": "Proved in memory for all documented headings, in the file for headings with growing positions, and for tasks without headings. Missing: without positions, as in the example of the documentation, the columns of the file are in the order of the alphabet and the values under wrong names, or nothing can be written; a first heading other than fx; optimizers which mix plain and detailed calls; numpy's integers and booleans without headings. Simplified: values are stored unchanged; which values fit which type is a parameter."
  },
  {
   "property": "C112",
   "status": "partial",
   "theorems": [
    "Glompo.Props.C112_entering",
    "Glompo.Props.C112_leaving",
    "Glompo.Props.C112_files",
    "Glompo.Props.C112_kept_refuted",
    "Glompo.Props.C112_removed_refuted"
   ],
   "note": "Proved for `with WorkInDirectory(path)`, with any body. Missing: objects made and kept; the directory is changed when they are made, not on entering. Simplified: no symbolic links, no permissions."
  },
  {
   "property": "C113",
   "status": "proved",
   "theorems": [
    "Glompo.Props.C113_summary",
    "Glompo.Props.C113_nothing"
   ],
   "note": "For all sequences of measurements and loadings. Simplified: exact arithmetic; rounding and the square root are parameters."
  },
  {
   "property": "C114",
   "status": "partial",
   "theorems": [
    "Glompo.Props.C114_workers_partial",
    "Glompo.Props.C114_as_asked_partial",
    "Glompo.Props.C114_lost_refuted",
    "Glompo.Props.C114_cma_refuted",
    "Glompo.Props.C114_nevergrad_refuted"
   ],
   "note": "Proved for ids, classes and workers, and for optimizers configured with neither arguments of the call nor a backend. Missing: arguments of the call and the backend are lost, so that resumed CMA and Nevergrad optimizers raise at once."
  },
  {
   "property": "C115",
   "status": "partial",
   "theorems": [
    "Glompo.Props.C115_exact",
    "Glompo.Props.C115_missing",
    "Glompo.Props.C115_missing_unchanged",
    "Glompo.Props.C115_unknown",
    "Glompo.Props.C115_validation",
    "Glompo.Props.C115_off_partial",
    "Glompo.Props.C115_atomic_refuted",
    "Glompo.Props.C115_off_refuted"
   ],
   "note": "Which weights change is proved for all references. Weight zero deactivates entries when evaluations succeed. Missing: unknown references leave the earlier weights changed; after failed evaluations scaled residuals of weight zero are nan."
  },
  {
   "property": "C116",
   "status": "partial",
   "theorems": [
    "Glompo.Props.C116_reax_partial",
    "Glompo.Props.C116_same_partial",
    "Glompo.Props.C116_xtb_partial",
    "Glompo.Props.C116_validation_refuted",
    "Glompo.Props.C116_settings_refuted",
    "Glompo.Props.C116_stale_refuted",
    "Glompo.Props.C116_xtb_refuted",
    "Glompo.Props.C116_save_refuted"
   ],
   "note": "Proved for data, jobs and ReaxFF parameters in a directory without YAML files, and for values if the settings are given again. Missing: validation set, scaling and loss are not saved; older YAML files win; activity and ranges of xTB parameters are lost; what save writes cannot be loaded. ParAMS' own reading and writing is a parameter of the theorems."
  },
  {
   "property": "C117",
   "status": "partial",
   "theorems": [
    "Glompo.Props.C117_log_file_partial",
    "Glompo.Props.C117_hunts_refuted"
   ],
   "note": "Proved: contents of the file, counts, best record and absence of exceptions at every moment of every run of a manager set up afresh, provided no optimizer sends an evaluation after its last message. Missing: the same decisions as with the log in memory, refuted by a run in which a hunt comes to an optimizer whose storage was released."
  },
  {
   "property": "C118",
   "status": "partial",
   "theorems": [
    "Glompo.Props.C118_status",
    "Glompo.Props.C118_slots",
    "Glompo.Props.C118_file_partial",
    "Glompo.Props.C118_file_refuted"
   ],
   "note": "Proved with the log in memory, for every moment of every run; the value of an optimizer which announced its end but still runs is left open (its history is released). With a log file proved as long as no running optimizer has announced its end, and refuted otherwise."
  },
  {
   "property": "C119",
   "status": "partial",
   "theorems": [
    "Glompo.Props.C119_reason",
    "Glompo.Props.C119_regular",
    "Glompo.Props.C119_saved",
    "Glompo.Props.C119_complete_partial",
    "Glompo.Props.C119_marker",
    "Glompo.Props.C119_killed_refuted",
    "Glompo.Props.C119_resumed_refuted"
   ],
   "note": "That nothing untrue is recorded is proved for every moment of every run and for the logs kept in checkpoints; that nothing is left out for runs of a manager set up afresh in which no component raises ValueError, and refuted for resumed runs. Refuted: that a termination by the manager stays on record."
  },
  {
   "property": "C120",
   "status": "proved",
   "theorems": [
    "Glompo.Props.C120_answer",
    "Glompo.Props.C120_checks",
    "Glompo.Props.C120_true_is_last",
    "Glompo.Props.C120_ends_if_met",
    "Glompo.Props.C120_ends_only_if_met",
    "Glompo.Props.C120_met_before",
    "Glompo.Props.C120_kills_after",
    "Glompo.Props.C120_kills_after_ends"
   ],
   "note": "Connects the running manager (C22, C25, C27) with the criteria (C12, C14). Combinations in which KillsAfterConvergence comes first: C120_kills_after, for first runs. Criteria about the clock, and KillsAfterConvergence elsewhere in a combination (C15_order_refuted), are covered by C120_true_is_last only."
  },
  {
   "property": "C121",
   "status": "partial",
   "theorems": [
    "Glompo.Props.C121_log_tells",
    "Glompo.Props.C121_log_honest",
    "Glompo.Props.C121_leader_kept",
    "Glompo.Props.C121_hunted",
    "Glompo.Props.C121_leader_released_refuted"
   ],
   "note": "Connects the running manager (C09, C18) with the hunting conditions (C13, C63, C64). Proved if no evaluation was lost on loading and no message says that an optimizer number 0 ended; refuted for loading which loses one. With test_all ParameterDistance may overlook optimizers (C63); that it condemns nobody wrongly is part of C121_hunted."
  },
  {
   "property": "C122",
   "status": "partial",
   "theorems": [
    "Glompo.Props.C122_answer",
    "Glompo.Props.C122_answer_default",
    "Glompo.Props.C122_seen",
    "Glompo.Props.C122_ends_if_converged",
    "Glompo.Props.C122_ends_only_if_converged",
    "Glompo.Props.C122_kill_after_convergence_refuted"
   ],
   "note": "Proved for the default in full; for n_killed > 0 kills are counted from the first check which saw enough converged optimizers, not from their convergence (witness). Extends C15 to whole runs and C120 to this criterion."
  },
  {
   "property": "C123",
   "status": "partial",
   "theorems": [
    "Glompo.Props.C123_latest_kept_by_number_partial",
    "Glompo.Props.C123_latest_kept_by_time_partial",
    "Glompo.Props.C123_same_second_refuted"
   ],
   "note": "Composes C33, C34, C35 and C66 over series of any length. Missing: a thousand checkpoints and more (C33), two in the same second (witness), a clock set back (C35), special characters (C34), failing compression (C66)."
  },
  {
   "property": "C124",
   "status": "proved",
   "theorems": [
    "Glompo.Props.C124_warning",
    "Glompo.Props.C124_warned",
    "Glompo.Props.C124_not_warned",
    "Glompo.Props.C124_history"
   ],
   "note": "C124_history is for criteria about what has happened (not the clock, not kills after convergence) and checkpoints which left no evaluation behind (see C93)."
  },
  {
   "property": "C125",
   "status": "partial",
   "theorems": [
    "Glompo.Props.C125_attributes",
    "Glompo.Props.C125_summary",
    "Glompo.Props.C125_run_partial",
    "Glompo.Props.C125_lost_refuted",
    "Glompo.Props.C125_resumed_refuted"
   ],
   "note": "C125_run_partial is for fresh managers, bounds written alike if equal, plots which succeed and attributes which fit. Refuted without: if saving the summary or the plot raises, the file is never closed and what is not flushed is lost (C125_lost_refuted); a resumed manager may count more evaluations than its log (C125_resumed_refuted); attributes too large for HDF5 keep the values of an earlier session (C125_attributes)."
  },
  {
   "property": "C126",
   "status": "partial",
   "theorems": [
    "Glompo.Props.C126_all_partial",
    "Glompo.Props.C126_one",
    "Glompo.Props.C126_ragged",
    "Glompo.Props.C126_released_refuted"
   ],
   "note": "C126_all_partial is for logs which keep the trajectories and points with the same number of parameters. Refuted without trajectories (C126_released_refuted): pictures are made for as many optimizers as are left in memory, counted from 1. Points of different lengths raise (C126_ragged)."
  },
  {
   "property": "C127",
   "status": "partial",
   "theorems": [
    "Glompo.Props.C127_one_class",
    "Glompo.Props.C127_type_hunter",
    "Glompo.Props.C127_metadata",
    "Glompo.Props.C127_known_partial",
    "Glompo.Props.C127_result",
    "Glompo.Props.C127_best",
    "Glompo.Props.C127_released_refuted"
   ],
   "note": "All parts are proved without hypotheses but that the entry in the log is there: C127_known_partial is for optimizers which have not sent their last message, or logs which keep the histories; refuted otherwise (C127_released_refuted)."
  },
  {
   "property": "C128",
   "status": "partial",
   "theorems": [
    "Glompo.Props.C128_settings_partial",
    "Glompo.Props.C128_refused",
    "Glompo.Props.C128_attribute",
    "Glompo.Props.C128_later_call_refuted",
    "Glompo.Props.C128_vv_refuted",
    "Glompo.Props.C128_sampler_refuted"
   ],
   "note": "Proved for the full sampler, for first calls and for later ones if a population size was given. Refuted for later calls without, for vv and for the documented names of samplers. What the samplers of the cma package change is a parameter; int(3 log d) is a parameter."
  },
  {
   "property": "C129",
   "status": "proved",
   "theorems": [
    "Glompo.Props.C129_everybody_judged",
    "Glompo.Props.C129_when_due",
    "Glompo.Props.C129_numbers",
    "Glompo.Props.C129_not_put_off",
    "Glompo.Props.C129_renewed"
   ],
   "note": "C129_not_put_off and C129_renewed are about all runs, new and loaded, however they end. Who is judged (C129_everybody_judged, C129_when_due) is stated for the functions, from any state in which no two optimizers have the same number and the counters agree with the events, as they do at every moment of every run (C129_numbers). An exception ends the hunt; what was done before it is covered by C121."
  },
  {
   "property": "C130",
   "status": "partial",
   "theorems": [
    "Glompo.Props.C130_limited_partial",
    "Glompo.Props.C130_sizes_refuted"
   ],
   "note": "Proved by the size of the first evaluation, which must not be 0 (sizes of Python objects never are). Refuted for the evaluations' own sizes."
  },
  {
   "property": "C131",
   "status": "partial",
   "theorems": [
    "Glompo.Props.C131_accepted",
    "Glompo.Props.C131_sensible",
    "Glompo.Props.C131_refused_partial",
    "Glompo.Props.C131_refuted",
    "Glompo.Props.C131_consequences_refuted"
   ],
   "note": "The exact set of accepted settings is proved; the senseless ones in it are listed in the specification and witnessed. Not modelled: lists of bounds whose elements are not pairs of numbers; the other generators and selectors, whose constructors check nothing (annealing, basin hopping) or only the optimizers (C110)."
  },
  {
   "property": "C132",
   "status": "partial",
   "theorems": [
    "Glompo.Props.C132_checkpoints_unnoticed_partial",
    "Glompo.Props.C132_resumed_unnoticed_partial",
    "Glompo.Props.C132_file",
    "Glompo.Props.C132_files_clean",
    "Glompo.Props.C132_failed_refuted",
    "Glompo.Props.C132_called_again_refuted",
    "Glompo.Props.C132_stopped_unasked",
    "Glompo.Props.C132_last_unasked"
   ],
   "note": "Proved for checkpoints which do not raise, for new and for resumed optimizers. Refuted: a failed checkpoint leaves the wrapper without parent and callbacks; each resumption adds one more registration. Nevergrad's own state is not modelled."
  },
  {
   "property": "C133",
   "status": "partial",
   "theorems": [
    "Glompo.Props.C133_never_over",
    "Glompo.Props.C133_missing_partial",
    "Glompo.Props.C133_evaluation_refuted",
    "Glompo.Props.C133_limit_refuted"
   ],
   "note": "Proved: never an overestimate, and exactly what is missing for nested lists, tuples and sets. Refuted for evaluations, and with it the limit of the buffer in bytes. Objects which contain themselves are not modelled; a part which is referred to several times counts as often in both sizes."
  },
  {
   "property": "C134",
   "status": "proved",
   "theorems": [
    "Glompo.Props.C134_distinct",
    "Glompo.Props.C134_read",
    "Glompo.Props.C134_restarts",
    "Glompo.Props.C134_foreign",
    "Glompo.Props.C134_complete",
    "Glompo.Props.C134_pruned",
    "Glompo.Props.C134_printed",
    "Glompo.Props.C134_resumed_refuted"
   ],
   "note": "Names are lists of characters, numbers any natural number. Text printed by a process is in its file at once; buffers are not modelled. The emptying of the files in a resumed run is shown by C134_resumed_refuted."
  },
  {
   "property": "C135",
   "status": "partial",
   "theorems": [
    "Glompo.Props.C135_where_partial",
    "Glompo.Props.C135_stem",
    "Glompo.Props.C135_shared_refuted",
    "Glompo.Props.C135_name_refuted",
    "Glompo.Props.C135_resumed_refuted"
   ],
   "note": "Proved for scopes which have their dictionary for themselves, whatever else happens in the session, and for names without further dots. Refuted for a dictionary which is used twice, names with dots and resumed runs. The writer of matplotlib is not modelled."
  },
  {
   "property": "C136",
   "status": "proved",
   "theorems": [
    "Glompo.Props.C136_between",
    "Glompo.Props.C136_overshoot",
    "Glompo.Props.C136_MaxOptsStarted",
    "Glompo.Props.C136_limit_refuted"
   ],
   "note": "For selectors which choose at least one worker and fit (those of the package do: C08). C136_limit_refuted shows that the bound is reached, so the limit itself is not kept."
  },
  {
   "property": "C137",
   "status": "proved",
   "theorems": [
    "Glompo.Props.C137_seen",
    "Glompo.Props.C137_fits",
    "Glompo.Props.C137_allowed",
    "Glompo.Props.C137_IterSpawnStop",
    "Glompo.Props.C137_NOptimizersSpawnStop",
    "Glompo.Props.C137_cycle",
    "Glompo.Props.C137_cycle_resumed",
    "Glompo.Props.C137_chain",
    "Glompo.Props.C137_slots"
   ],
   "note": "The run is one whose answers of the selector are those which the model of the selector gives to the questions of the run; C137_seen shows that these questions carry the manager's counters."
  },
  {
   "property": "C138",
   "status": "partial",
   "theorems": [
    "Glompo.Props.C138_refused_partial",
    "Glompo.Props.C138_blocked_refuted"
   ],
   "note": "Holds if no configured optimizer has more workers than max_jobs, which nothing checks. Otherwise the cycle stops for ever at that optimizer (C138_blocked_refuted, for all runs). Missing: that requests are repeated until one is granted, which depends on when optimizers end."
  }
 ]
}