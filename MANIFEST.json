{
 "claims": [
  {
   "property": "C01",
   "status": "proved",
   "theorems": [
    "Bedrock.DB.c01_chain_agreement",
    "Bedrock.DB.c01_same_hash_same_history"
   ],
   "note": "Hash-chain agreement for arbitrary digest of fixed length, and for any two databases after any disciplined run with crashes; collision is explicit."
  },
  {
   "property": "C02",
   "status": "proved",
   "theorems": [
    "Bedrock.Cluster.c02_follower_prefix",
    "Bedrock.Cluster.c02_always_prefix"
   ],
   "note": "One leader and any number of followers over the real database and replication models; every schedule of commits, broadcasts, subscriptions, deliveries, disconnections and crashes. Prefix up to an explicit digest collision."
  },
  {
   "property": "C03",
   "status": "partial",
   "theorems": [
    "Bedrock.Sync.c03_only_verified_commits",
    "Bedrock.Sync.c03_bad_element_stops",
    "Bedrock.Sync.c03_success_means_all_applied_partial",
    "Bedrock.Sync.c03_ignored_commit_failure"
   ],
   "note": "Every response, honest or not: only consecutive hash-verified commits are applied, and a bad element stops the exchange with a failure. 'Reported success means all applied' fails in the code when the last commit fails (witness c03_ignored_commit_failure); proved when SQLite refuses no commit."
  },
  {
   "property": "C04",
   "status": "proved",
   "theorems": [
    "Bedrock.Sync.c04_reply_exact",
    "Bedrock.Sync.c04_reply_decision",
    "Bedrock.Sync.c04_catches_up"
   ],
   "note": "Range and content of the reply for every reachable database and every peer position, decision table for errors, and exact history after any number of exchanges (induction). SQL reading of the journal is modelled as filter+order; 64-bit wrap of the size comparison is argued in the model comment."
  },
  {
   "property": "C05",
   "status": "proved",
   "theorems": [
    "Bedrock.Sync.c05_applied_exactly_or_not_at_all",
    "Bedrock.Sync.c05_accepts_next"
   ],
   "note": "Every follower state, message and failure pattern; the code's reaction to a refused transaction is termination of the process, modelled as a crash."
  },
  {
   "property": "C06",
   "status": "proved",
   "theorems": [
    "Bedrock.DB.c06_feed_complete",
    "Bedrock.DB.c06_drain"
   ],
   "note": "Invariant over all operation lists on any number of handles, crashes included."
  },
  {
   "property": "C07",
   "status": "partial",
   "theorems": [
    "Bedrock.Cluster.c07_broadcast_gapless",
    "Bedrock.Cluster.c07_send_complete",
    "Bedrock.Cluster.c07_nothing_missed_partial",
    "Bedrock.Cluster.c07_caught_up_partial",
    "Bedrock.Cluster.c07_next_is_applied_partial",
    "Bedrock.Cluster.c07_gap_after_failed_commit"
   ],
   "note": "Broadcasts are exactly the leader's commits since it took over (outright). 'Misses nothing' needs the local commits of the subscription reply to succeed: the code ignores a failed one (witness c07_gap_after_failed_commit)."
  },
  {
   "property": "C08",
   "status": "proved",
   "theorems": [
    "Bedrock.DB.c08_no_commit_while_disabled",
    "Bedrock.DB.c08_disable_waits_for_commits",
    "Bedrock.DB.c08_refused_commit_can_roll_back",
    "Bedrock.Node.Props.c08_node_disables_commits",
    "Bedrock.Node.Props.c08_order_on_leaving"
   ],
   "note": "Database half: no commit while disabled, disabling waits for prepared handles, refused commit can be rolled back. Node half: over every history the node has commits disabled exactly between leaving leadership and leaving SEARCHING; outstanding transactions are sent before subscriptions are dropped."
  },
  {
   "property": "C09",
   "status": "proved",
   "theorems": [
    "Bedrock.DB.c09_newest_commits_kept",
    "Bedrock.DB.c09_rows_sound",
    "Bedrock.DB.c09_restart_recovers",
    "Bedrock.DB.c09_crash_in_commit",
    "Bedrock.DB.c09_old_entry_goes"
   ],
   "note": "Invariant over all operation lists; newest maxJournalSize+1 commits are kept; crash at any point, including inside commit."
  },
  {
   "property": "C10",
   "status": "partial",
   "theorems": [
    "Bedrock.DB.c10_lock_exclusive",
    "Bedrock.DB.c10_lock_given_back_partial",
    "Bedrock.DB.c10_released_after_end_partial",
    "Bedrock.DB.c10_double_begin_leaks_lock",
    "Bedrock.DB.c10_failed_begin_leaks_lock"
   ],
   "note": "Exclusivity proved outright. Giving the lock back needs callers that do not begin twice and a BEGIN that does not fail; the code leaks the lock otherwise (two witness theorems)."
  },
  {
   "property": "C11",
   "status": "proved",
   "theorems": [
    "Bedrock.Node.Props.c11_elected_by_majority",
    "Bedrock.Node.Props.c11_elections_intersect"
   ],
   "note": "Every history of one candidate with arbitrary peers: the election is by a strict majority that approved this attempt; two elections in one cluster intersect (pigeonhole). An approval is not a lock: the code lets a node approve a second candidate once the first gave up (example in NodeRules)."
  },
  {
   "property": "C12",
   "status": "partial",
   "theorems": [
    "Bedrock.Node.Props.c12_approves_only_unopposed",
    "Bedrock.Node.Props.c12_approves_unopposed",
    "Bedrock.Node.Props.c12_one_denial_ends_it",
    "Bedrock.Node.Props.c12_approves_candidate_behind"
   ],
   "note": "Approvals go only to unopposed, unforked full peers (iff), one denial ends the attempt. The commit-count comparison of the full statement does not exist in the code: witness c12_approves_candidate_behind."
  },
  {
   "property": "C13",
   "status": "partial",
   "theorems": [
    "Bedrock.Node.Props.c13_permafollower_never_leads_partial",
    "Bedrock.Node.Props.c13_shutting_down_permafollower_leads",
    "Bedrock.Node.Props.c13_election_ignores_permafollowers",
    "Bedrock.Node.Props.c13_waiting_ignores_permafollowers",
    "Bedrock.Node.Props.c13_searching_needs_full_quorum",
    "Bedrock.Node.Props.c13_fork_ignores_permafollowers",
    "Bedrock.Node.Props.c13_subscription_quorum_ignores_permafollowers",
    "Bedrock.Node.Props.c13_permafollower_deposes_leader"
   ],
   "note": "Never leads, over every history without a priority change; quorum, election, waiting and fork decisions depend on full peers only. Fails with setShutdownPriority (witness c13_shutting_down_permafollower_leads), and a waiting permafollower that is ahead deposes a leader (witness)."
  },
  {
   "property": "C14",
   "status": "proved",
   "theorems": [
    "Bedrock.Node.Props.c14_walk",
    "Bedrock.Node.Props.c14_leads_only_after_standing_up",
    "Bedrock.Node.Props.c14_follows_only_after_subscribing",
    "Bedrock.Node.Props.c14_lead_and_sync_peer"
   ],
   "note": "Every history of updates, messages, disconnects and control calls, arbitrary peers; hist is a walk in the documented graph."
  },
  {
   "property": "C15",
   "status": "proved",
   "theorems": [
    "Bedrock.Node.Props.c15_stale_ignored",
    "Bedrock.Node.Props.c15_attempts_are_numbered",
    "Bedrock.Node.Props.c15_counted_votes_are_current"
   ],
   "note": "Stale response is equivalent to a plain status message; over every history every counted approval answers the current attempt."
  },
  {
   "property": "C16",
   "status": "proved",
   "theorems": [
    "Bedrock.Node.Props.c16_stands_down_iff"
   ],
   "note": "Exact condition, for every leading node and peer table, and the exact states entered."
  },
  {
   "property": "C17",
   "status": "proved",
   "theorems": [
    "Bedrock.Node.Props.c17_dies_only_outvoted",
    "Bedrock.Node.Props.c17_one_diverged_node_is_survived",
    "Bedrock.Node.Props.c17_dies_iff_outvoted"
   ],
   "note": "Over every history death implies half of the cluster is forked from the node; FORKED message: iff. Two-node cluster: both die (example)."
  },
  {
   "property": "C18",
   "status": "partial",
   "theorems": [
    "Bedrock.Node.Props.c18_decision",
    "Bedrock.Node.Props.c18_unique_step_partial",
    "Bedrock.Node.Props.c18_unique_partial",
    "Bedrock.Node.Props.c18_state_message_unchecked",
    "Bedrock.Node.Props.c18_first_login_unchecked",
    "Bedrock.Node.Props.c18_follower_looks_anew"
   ],
   "note": "Decision table and no effect of refusals proved outright. Uniqueness over histories is proved except for two unchecked ways in (STATE message; first LOGIN with our version), for which witnesses show it fails."
  },
  {
   "property": "C19",
   "status": "partial",
   "theorems": [
    "Bedrock.Node.Props.c19_gives_up_iff",
    "Bedrock.Node.Props.c19_odd_cluster_keeps_majority_partial",
    "Bedrock.Node.Props.c19_even_cluster_keeps_half"
   ],
   "note": "Leaves at once iff fewer than half of the other full peers are connected. In odd clusters that keeps a strict majority; in even clusters half is enough and the claim fails (witness c19_even_cluster_keeps_half)."
  },
  {
   "property": "C20",
   "status": "partial",
   "theorems": [
    "Bedrock.Node.Props.c20_port_follows_rule",
    "Bedrock.Node.Props.c20_hysteresis",
    "Bedrock.Node.Props.c20_laggard_reopens",
    "Bedrock.Node.Props.c20_difference"
   ],
   "note": "Exact rule per event and over histories, hysteresis for messages of the leader. A message of another lagging peer reopens the port while the node is still far behind its leader (witness c20_laggard_reopens)."
  },
  {
   "property": "C21",
   "status": "proved",
   "theorems": [
    "Bedrock.Handle.Props.c21_as_if_not_issued",
    "Bedrock.Handle.Props.c21_mocked",
    "Bedrock.Handle.Props.c21_idempotent_write_happens",
    "Bedrock.Handle.Props.c21_pragma_refused_diverges",
    "Bedrock.Handle.Props.c21_pragma_rewritten_diverges"
   ],
   "note": "Histories: plain writes in no-op mode can be deleted without trace; a mocked command commits two pragmas and changes nothing on leader or follower. Writes of the other kinds are let through by design (c21_idempotent_write_happens)."
  },
  {
   "property": "C22",
   "status": "proved",
   "theorems": [
    "Bedrock.Http.Props.c22_composes",
    "Bedrock.Http.Props.c22_round_trip",
    "Bedrock.Http.Props.c22_names_kept",
    "Bedrock.Http.Props.c22_blanks_lost",
    "Bedrock.Http.Props.c22_empty_method_swallows_header",
    "Bedrock.Http.Props.c22_chunked_header_breaks",
    "Bedrock.Http.Props.c22_gzip_header_lost"
   ],
   "note": "Round trip for messages whose names are tokens, whose method line is one non-empty line and whose values carry no NUL and no outer blanks; the counterexamples c22_* show why each restriction is needed."
  },
  {
   "property": "C23",
   "status": "proved",
   "theorems": [
    "Bedrock.Http.Props.c23_stream",
    "Bedrock.Http.Props.c23_incomplete_tail",
    "Bedrock.Http.Props.c23_one_byte_early",
    "Bedrock.Http.Props.c23_huge_chunk_is_undefined",
    "Bedrock.Http.Props.c23_blank_first_line_is_undefined",
    "Bedrock.Http.Props.c23_content_length_quirks"
   ],
   "note": "Any cut of a stream of composed messages; a message without content may be accepted before its final line feed (c23_one_byte_early). Undefined behaviour of the parser on hostile input is recorded by c23_huge_chunk_is_undefined and c23_blank_first_line_is_undefined."
  },
  {
   "property": "C24",
   "status": "proved",
   "theorems": [
    "Bedrock.Http.Props.c24_values_cannot_inject",
    "Bedrock.Http.Props.c24_name_injects",
    "Bedrock.Http.Props.c24_cookie_injects",
    "Bedrock.Http.Props.c24_nameless_line_overwrites",
    "Bedrock.Http.Props.c24_method_line_refused"
   ],
   "note": "For header values of any bytes. Header names and cookie values are not protected: c24_name_injects, c24_cookie_injects."
  },
  {
   "property": "C25",
   "status": "proved",
   "theorems": [
    "Bedrock.Text.Props.c25_round_trip",
    "Bedrock.Text.Props.c25_nothing_unprotected",
    "Bedrock.Text.Props.c25_controls_absent",
    "Bedrock.Text.Props.c25_code_letter_breaks",
    "Bedrock.Text.Props.c25_cut_at_nul"
   ],
   "note": "Escape and unescape; c25_code_letter_breaks and c25_cut_at_nul show the inputs excluded."
  },
  {
   "property": "C26",
   "status": "proved",
   "theorems": [
    "Bedrock.Text.Props.c26_round_trip",
    "Bedrock.Text.Props.c26_alphabet",
    "Bedrock.Text.Props.c26_kept",
    "Bedrock.Text.Props.c26_decode_no_growth",
    "Bedrock.Text.Props.c26_decode_plain"
   ],
   "note": ""
  },
  {
   "property": "C27",
   "status": "proved",
   "theorems": [
    "Bedrock.Text.Props.c27_bytes_round_trip",
    "Bedrock.Text.Props.c27_bytes_shape",
    "Bedrock.Text.Props.c27_number_round_trip",
    "Bedrock.Text.Props.c27_number_sixteen",
    "Bedrock.Text.Props.c27_number_shape",
    "Bedrock.Text.Props.c27_lower_case"
   ],
   "note": ""
  },
  {
   "property": "C28",
   "status": "proved",
   "theorems": [
    "Bedrock.Handle.Props.c28_modes_take",
    "Bedrock.Text.Props.c28_decides",
    "Bedrock.Text.Props.c28_positions",
    "Bedrock.Text.Props.c28_reads",
    "Bedrock.Text.Props.c28_ignoring_case"
   ],
   "note": ""
  },
  {
   "property": "C29",
   "status": "partial",
   "theorems": [
    "Bedrock.Text.Props.c29_round_trip",
    "Bedrock.Text.Props.c29_elements_partial",
    "Bedrock.Text.Props.c29_nothing_lost",
    "Bedrock.Text.Props.c29_trailing_blank_kept",
    "Bedrock.Text.Props.c29_flag_false_though_found"
   ],
   "note": "Elements round-trip when they contain no separator, outer blank or control; trailing blanks are kept and the result flag is wrong (c29_trailing_blank_kept, c29_flag_false_though_found)."
  },
  {
   "property": "C30",
   "status": "partial",
   "theorems": [
    "Bedrock.Json.Props.c30_array_read",
    "Bedrock.Json.Props.c30_object_read",
    "Bedrock.Json.Props.c30_no_crash",
    "Bedrock.Json.Props.c30_nul_ends_the_process",
    "Bedrock.Json.Props.c30_array_partial",
    "Bedrock.Json.Props.c30_object_partial",
    "Bedrock.Json.Props.c30_nested",
    "Bedrock.Json.Props.c30_truncated_accepted",
    "Bedrock.Json.Props.c30_literals_lose_case",
    "Bedrock.Json.Props.c30_names_not_escaped",
    "Bedrock.Json.Props.c30_no_controls",
    "Bedrock.Json.Props.c30_plain_text"
   ],
   "note": "Every JSON text is read correctly (grammar given independently); lists and tables of kept strings round-trip, nested to any depth; no text without NUL ends the process. Not kept: NUL, other spellings of true/false/null, cut-off brackets, names with quote or backslash (witnesses)."
  },
  {
   "property": "C31",
   "status": "proved",
   "theorems": [
    "Bedrock.MySQL.Props.c31_any",
    "Bedrock.Text.Props.c31_integers",
    "Bedrock.Text.Props.c31_integers_bytes",
    "Bedrock.Text.Props.c31_integers_kept",
    "Bedrock.Text.Props.c31_text_list",
    "Bedrock.Text.Props.c31_integers_dropped",
    "Bedrock.Text.Props.c31_quoted",
    "Bedrock.Text.Props.c31_quoted_list",
    "Bedrock.Text.Props.c31_nul_truncates"
   ],
   "note": "Literals of any bytes but NUL; NUL truncates (c31_nul_truncates)."
  },
  {
   "property": "C32",
   "status": "partial",
   "theorems": [
    "Bedrock.Param.Props.c32_value_partial",
    "Bedrock.Param.Props.c32_empty_text_throws",
    "Bedrock.Param.Props.c32_name_round_trip",
    "Bedrock.Param.Props.c32_name_no_colon",
    "Bedrock.Param.Props.c32_transport_partial",
    "Bedrock.Param.Props.c32_case_collides"
   ],
   "note": "Values and names come back exactly; c32_transport_partial carries all parameters of a request through composing and parsing of the message. Missing: empty texts and blobs throw (c32_empty_text_throws), names differing only in case collide (c32_case_collides), names with end-of-line, NUL or trailing blank; the text of doubles is two assumed inverse functions."
  },
  {
   "property": "C33",
   "status": "proved",
   "theorems": [
    "Bedrock.Buffer.Props.c33_fifo",
    "Bedrock.Buffer.Props.c33_size"
   ],
   "note": "Refinement to a plain byte list over all operation sequences; sizes below the range of size_t."
  },
  {
   "property": "C34",
   "status": "partial",
   "theorems": [
    "Bedrock.Buffer.Props.c34_detects_partial",
    "Bedrock.Buffer.Props.c34_asking_is_harmless",
    "Bedrock.Buffer.Props.c34_requests_are_detected",
    "Bedrock.Buffer.Props.c34_depends_on_consumed_bytes"
   ],
   "note": "Exact unless the buffer begins with LF CR LF and the byte consumed just before it was CR; then the answer depends on consumed bytes (witness theorem)."
  },
  {
   "property": "C35",
   "status": "proved",
   "theorems": [
    "Bedrock.Ring.Props.c35_in_order",
    "Bedrock.Ring.Props.c35_all_delivered",
    "Bedrock.Ring.Props.c35_no_overwrite",
    "Bedrock.Ring.Props.c35_bounded",
    "Bedrock.Ring.Props.c35_rejected_has_no_effect",
    "Bedrock.Ring.Props.c35_rejected_though_empty",
    "Bedrock.Ring.Props.c35_can_close"
   ],
   "note": "Any number of producers, any capacity, stale index loads allowed; indices do not wrap around; shutdown at most once. A push can be rejected although the buffer is empty (witness)."
  },
  {
   "property": "C36",
   "status": "partial",
   "theorems": [
    "Bedrock.SyncQueue.Props.c36_fifo",
    "Bedrock.SyncQueue.Props.c36_subsequence",
    "Bedrock.SyncQueue.Props.c36_no_lost_wakeup",
    "Bedrock.SyncQueue.Props.c36_lost_wakeup_if_left",
    "Bedrock.SyncQueue.Props.c36_full_pipe_deadlock"
   ],
   "note": "FIFO and exactly-once for all interleavings; no lost wakeup for a consumer that pops until empty. A consumer that leaves items behind loses the wakeup, and a full pipe deadlocks (witnesses)."
  },
  {
   "property": "C37",
   "status": "partial",
   "theorems": [
    "Bedrock.CmdQueue.Props.c37_exactly_once",
    "Bedrock.CmdQueue.Props.c37_never_early",
    "Bedrock.CmdQueue.Props.c37_oldest_timeout_first",
    "Bedrock.CmdQueue.Props.c37_earliest_scheduled_next",
    "Bedrock.CmdQueue.Props.c37_equal_times_in_order",
    "Bedrock.CmdQueue.Props.c37_abandon_delays"
   ],
   "note": "Exactly once and never early hold for all histories; the order clauses hold as long as no future commands were abandoned, since abandoning leaves timeouts behind (witness)."
  },
  {
   "property": "C38",
   "status": "proved",
   "theorems": [
    "Bedrock.RateLimit.Props.c38_blocked_iff_over_limit",
    "Bedrock.RateLimit.Props.c38_block_lasts_exactly",
    "Bedrock.RateLimit.Props.c38_others_do_not_matter",
    "Bedrock.RateLimit.Props.c38_switched_off",
    "Bedrock.RateLimit.Props.c38_refuses_exactly_blocked",
    "Bedrock.RateLimit.Props.c38_out_of_order_readings"
   ],
   "note": "For histories whose clock readings do not go back and whose window does not grow; changes of threshold and duration allowed. Out-of-order readings can miss a block (witness). Independence of other identifiers holds without any assumption."
  },
  {
   "property": "C39",
   "status": "proved",
   "theorems": [
    "Bedrock.ConflictLock.Props.c39_never_discarded_in_use",
    "Bedrock.ConflictLock.Props.c39_exclusive",
    "Bedrock.ConflictLock.Props.c39_free_lock_is_taken",
    "Bedrock.ConflictLock.Props.c39_destroy_frees",
    "Bedrock.ConflictLock.Props.c39_page_zero",
    "Bedrock.ConflictLock.Props.c39_unused_bounded",
    "Bedrock.ConflictLock.Props.c39_pruning_keeps_used"
   ],
   "note": "All histories, any number of guards and pages; a dangling mutex pointer would be a distinct outcome of the model and is shown unreachable."
  },
  {
   "property": "C40",
   "status": "proved",
   "theorems": [
    "Bedrock.Pool.Props.c40_one_user_per_handle",
    "Bedrock.Pool.Props.c40_every_handle_accounted_for",
    "Bedrock.Pool.Props.c40_at_most_configured",
    "Bedrock.Pool.Props.c40_waits_only_while_all_are_used",
    "Bedrock.Pool.Props.c40_available_is_given",
    "Bedrock.Pool.Props.c40_single_handle_never_serves",
    "Bedrock.Pool.Props.c40_least_given"
   ],
   "note": "All interleavings of any number of threads, spurious wake-ups included. With maxDBs = 1 no handle is ever given out (witness theorem)."
  },
  {
   "property": "C41",
   "status": "proved",
   "theorems": [
    "Bedrock.CoreCommit.Props.c41_commit_or_rollback",
    "Bedrock.CoreCommit.Props.c41_never_asserts",
    "Bedrock.CoreCommit.Props.c41_success_committed"
   ],
   "note": "For every reachable database state, all behaviour of other threads between the steps of the call, and all outcomes of SQLite; the hash function is only assumed to return a nonempty string."
  },
  {
   "property": "C42",
   "status": "partial",
   "theorems": [
    "Bedrock.Command.Props.c42_peek_complete",
    "Bedrock.Command.Props.c42_peek_shouldProcess",
    "Bedrock.Command.Props.c42_read_stage_resets",
    "Bedrock.Command.Props.c42_process",
    "Bedrock.Command.Props.c42_flags",
    "Bedrock.Command.Props.c42_answer",
    "Bedrock.Command.Props.c42_read_stage_clean_partial",
    "Bedrock.Command.Props.c42_peek_clean_partial",
    "Bedrock.Command.Props.c42_peek_keeps_transaction_partial",
    "Bedrock.Command.Props.c42_process_clean_partial",
    "Bedrock.Command.Props.c42_prePeek_transaction_leak",
    "Bedrock.Command.Props.c42_needsCommit_without_transaction",
    "Bedrock.Command.Props.c42_peek_noop_leak",
    "Bedrock.Command.Props.c42_failed_begin_keeps_lock"
   ],
   "note": "Completeness of responses, reset of limits and the process stage hold for any plugin; that the handle is clean after the read stages holds for plugins that do not open or close transactions themselves and when BEGIN succeeds. Witnesses show each restriction is needed."
  },
  {
   "property": "C43",
   "status": "partial",
   "theorems": [
    "Bedrock.Deadline.Props.c43_requested_timeout_partial",
    "Bedrock.Deadline.Props.c43_default_timeout",
    "Bedrock.Deadline.Props.c43_scheduled_timeout",
    "Bedrock.Deadline.Props.c43_remaining",
    "Bedrock.Deadline.Props.c43_expired_does_not_run",
    "Bedrock.Deadline.Props.c43_limit_in_force",
    "Bedrock.Deadline.Props.c43_decrease_partial",
    "Bedrock.Deadline.Props.c43_forward_partial",
    "Bedrock.Deadline.Props.c43_hops_partial",
    "Bedrock.Deadline.Props.c43_huge_negative_timeout",
    "Bedrock.Deadline.Props.c43_decrease_extends",
    "Bedrock.Deadline.Props.c43_expired_forward",
    "Bedrock.Deadline.Props.c43_scheduled_forward_expires",
    "Bedrock.Deadline.Props.c43_peek_limit",
    "Bedrock.Deadline.Props.c43_process_limit",
    "Bedrock.Deadline.Props.c43_expired_waiting",
    "Bedrock.Deadline.Props.c43_allowance_lost"
   ],
   "note": "The code extends deadlines in four situations, each with a witness theorem; the positive theorems are restricted to timeouts and clocks outside of those."
  },
  {
   "property": "C44",
   "status": "partial",
   "theorems": [
    "Bedrock.Jobs.Props.c44_not_again_partial",
    "Bedrock.Jobs.Props.c44_ids_unique",
    "Bedrock.Jobs.Props.c44_only_due",
    "Bedrock.Jobs.Props.c44_cancel_child_twice"
   ],
   "note": "A handed-out job is not handed out again before its retry time in any history without a releasing command. Partial: cancelling a child also releases a running parent (witness c44_cancel_child_twice), and FinishJob, RetryJob, RequeueJobs and an UpdateJob that moves nextRun are excluded whether or not they succeed."
  },
  {
   "property": "C45",
   "status": "proved",
   "theorems": [
    "Bedrock.Jobs.Props.c45_returned",
    "Bedrock.Jobs.Props.c45_best",
    "Bedrock.Jobs.Props.c45_none",
    "Bedrock.Jobs.Props.c45_text_priority"
   ],
   "note": "All tables, limits and patterns. Witness: RetryJob can store a priority text that is never selected (c45_text_priority)."
  },
  {
   "property": "C46",
   "status": "partial",
   "theorems": [
    "Bedrock.Jobs.Props.c46_one_level",
    "Bedrock.Jobs.Props.c46_not_parallel",
    "Bedrock.Jobs.Props.c46_created_under",
    "Bedrock.Jobs.Props.c46_finish_waits",
    "Bedrock.Jobs.Props.c46_last_child",
    "Bedrock.Jobs.Props.c46_delete_orphans",
    "Bedrock.Jobs.Props.c46_failed_child_blocks",
    "Bedrock.Jobs.Props.c46_requeue_parallel"
   ],
   "note": "One level and no child beside its parent are invariants over all histories, given that new IDs do not reuse those of deleted parents and RequeueJobs/RetryJob are not used by force; witnesses show what fails otherwise: DeleteJob orphans children, a failed last child leaves the parent paused, RequeueJobs breaks the family."
  },
  {
   "property": "C47",
   "status": "proved",
   "theorems": [
    "Bedrock.Jobs.Props.c47_only_documented",
    "Bedrock.Jobs.Props.c47_error_changes_nothing",
    "Bedrock.Jobs.Props.c47_fail",
    "Bedrock.Jobs.Props.c47_delete",
    "Bedrock.Jobs.Props.c47_finish_simple",
    "Bedrock.Jobs.Props.c47_frame",
    "Bedrock.Jobs.Props.c47_mocked_any_state",
    "Bedrock.Jobs.Props.c47_manual_scheduled_stuck"
   ],
   "note": "CancelJob also acts on CANCELLED children, and mocked jobs are finished in any state (witness)."
  },
  {
   "property": "C48",
   "status": "partial",
   "theorems": [
    "Bedrock.Jobs.Props.c48_reanchored_partial",
    "Bedrock.Jobs.Props.c48_not_skipped",
    "Bedrock.Jobs.Props.c48_snapped",
    "Bedrock.Jobs.Props.c48_fixed_grid",
    "Bedrock.Jobs.Props.c48_for_ever",
    "Bedrock.Jobs.Props.c48_canned",
    "Bedrock.Jobs.Props.c48_finish_on_grid",
    "Bedrock.Jobs.Props.c48_retry_moves_grid",
    "Bedrock.Jobs.Props.c48_delay"
   ],
   "note": "All intervals, times and numbers of repetitions for _constructNextRunDATETIME and for FinishJob of a job without retryAfter. Partial: for a job that was retried automatically the code loses the original schedule (witness c48_retry_moves_grid)."
  },
  {
   "property": "C49",
   "status": "partial",
   "theorems": [
    "Bedrock.Jobs.Props.c49_bounded_partial",
    "Bedrock.Jobs.Props.c49_update_resets",
    "Bedrock.Jobs.Props.c49_then_failed",
    "Bedrock.Jobs.Props.c49_manual_exempt",
    "Bedrock.Jobs.Props.c49_lost_job",
    "Bedrock.Jobs.Props.c49_null_date"
   ],
   "note": "At most ten hand-outs in any history without reset. Partial: UpdateJob also resets the count (witness), as do overwriting CreateJob and RequeueJobs with decrement, and dates must be computable (witness)."
  },
  {
   "property": "C50",
   "status": "partial",
   "theorems": [
    "Bedrock.Cache.Props.c50_counter",
    "Bedrock.Cache.Props.c50_within_partial",
    "Bedrock.Cache.Props.c50_no_crash",
    "Bedrock.Cache.Props.c50_why_removed",
    "Bedrock.Cache.Props.c50_read_back",
    "Bedrock.Cache.Props.c50_lru_partial",
    "Bedrock.Cache.Props.c50_utf8_overflow",
    "Bedrock.Cache.Props.c50_drift",
    "Bedrock.Cache.Props.c50_rollback_order",
    "Bedrock.Cache.Props.c50_nul_truncates",
    "Bedrock.Cache.Props.c50_nul_name_crash",
    "Bedrock.Cache.Props.c50_limits",
    "Bedrock.Cache.Props.c50_characters"
   ],
   "note": "All histories of reads, writes, roll backs, restarts and writes by other nodes. Partial: sizes are counted in characters (witness c50_utf8_overflow), only connections with recursive triggers keep the counter (witness c50_drift), and the order holds while the node alone writes and commits (witness c50_rollback_order)."
  },
  {
   "property": "C51",
   "status": "partial",
   "theorems": [
    "Bedrock.Text.Props.c51_bmp_partial",
    "Bedrock.Text.Props.c51_surrogate_pair_wrong"
   ],
   "note": "True for code points of the basic plane; a surrogate pair is decoded to two three-byte sequences instead of one four-byte sequence (c51_surrogate_pair_wrong)."
  },
  {
   "property": "C52",
   "status": "partial",
   "theorems": [
    "Bedrock.MySQL.Props.c52_int_round_trip",
    "Bedrock.MySQL.Props.c52_str_round_trip",
    "Bedrock.MySQL.Props.c52_packet_round_trip",
    "Bedrock.MySQL.Props.c52_incomplete_kept",
    "Bedrock.MySQL.Props.c52_consumes_a_packet",
    "Bedrock.MySQL.Props.c52_long_packet_cut",
    "Bedrock.MySQL.Props.c52_chunking",
    "Bedrock.MySQL.Props.c52_stream",
    "Bedrock.MySQL.Props.c52_answer_partial",
    "Bedrock.MySQL.Props.c52_row_extra_byte",
    "Bedrock.MySQL.Props.c52_error",
    "Bedrock.MySQL.Props.c52_single_served",
    "Bedrock.MySQL.Props.c52_pipelined_lost"
   ],
   "note": "Integers, strings, packets of less than 16 MiB, any chunking of the stream, and whole answers round-trip. Missing: longer payloads (truncated by the code, c52_long_packet_cut), two queries in one buffer (c52_pipelined_lost); rows carry an extra byte (c52_row_extra_byte)."
  },
  {
   "property": "C53",
   "status": "proved",
   "theorems": [
    "Bedrock.Attr.Props.c53_int64",
    "Bedrock.Attr.Props.c53_int64_value",
    "Bedrock.Attr.Props.c53_size",
    "Bedrock.Attr.Props.c53_bool",
    "Bedrock.Attr.Props.c53_bool_nul",
    "Bedrock.Attr.Props.c53_date",
    "Bedrock.Attr.Props.c53_date_not_calendar",
    "Bedrock.Attr.Props.c53_date_attribute"
   ],
   "note": "For every string; for bools and dates the text up to the first NUL (c53_bool_nul)."
  },
  {
   "property": "C54",
   "status": "partial",
   "theorems": [
    "Bedrock.Attr.Props.c54_guard",
    "Bedrock.Attr.Props.c54_refused",
    "Bedrock.Attr.Props.c54_evaded",
    "Bedrock.Attr.Props.c54_refused_needlessly"
   ],
   "note": "Every text that starts with UPDATE or DELETE in any case and does not contain ' WHERE ' is refused. Missing: the keyword is looked for as text, so strings, comments, other statements and WITH evade it (c54_evaded), and a WHERE between other white space is refused (c54_refused_needlessly)."
  },
  {
   "property": "C55",
   "status": "proved",
   "theorems": [
    "Bedrock.Lookup.Props.c55_found_iff",
    "Bedrock.Lookup.Props.c55_found_by_name",
    "Bedrock.Lookup.Props.c55_same_name_hidden"
   ],
   "note": "For every configured list and every sorted permutation of it; names used twice hide a peer (c55_same_name_hidden)."
  },
  {
   "property": "C56",
   "status": "partial",
   "theorems": [
    "Bedrock.Handle.Props.c56_fresh_partial",
    "Bedrock.Handle.Props.c56_randomblob_repeats"
   ],
   "note": "All histories of transactions, reads, writes, mode changes and other threads' commits over any engine with the stated properties. Partial: volatile functions missing from the code's list (witness c56_randomblob_repeats) and a whitelist or rewrite handler changed inside a transaction."
  },
  {
   "property": "C57",
   "status": "partial",
   "theorems": [
    "Bedrock.Lookup.Props.c57_positive_unused",
    "Bedrock.Lookup.Props.c57_not_in_table",
    "Bedrock.Lookup.Props.c57_ends",
    "Bedrock.Lookup.Props.c57_failed_query"
   ],
   "note": "For every random sequence and table, if the queries succeed. Missing: a failed query counts as unused (c57_failed_query)."
  },
  {
   "property": "C58",
   "status": "partial",
   "theorems": [
    "Bedrock.Lookup.Props.c58_days_in_month",
    "Bedrock.Lookup.Props.c58_year",
    "Bedrock.Lookup.Props.c58_no_such_month",
    "Bedrock.Lookup.Props.c58_first_of_month_partial",
    "Bedrock.Lookup.Props.c58_before_1900",
    "Bedrock.Lookup.Props.c58_year_overflow",
    "Bedrock.Lookup.Props.c58_month_missing",
    "Bedrock.Lookup.Props.c58_sum_overflow"
   ],
   "note": "Days in month for all integer years; first of month for every offset with a result from 1900 on. Missing: before 1900 (c58_before_1900)."
  },
  {
   "property": "C59",
   "status": "partial",
   "theorems": [
    "Bedrock.Handle.Props.c59_no_change",
    "Bedrock.Handle.Props.c59_only_listed_partial",
    "Bedrock.Handle.Props.c59_refused",
    "Bedrock.Handle.Props.c59_cache_leak",
    "Bedrock.Handle.Props.c59_query_only_stays"
   ],
   "note": "Under a whitelist nothing changes, and answers depend only on listed columns and on the shape of the database. Missing: row counts are not protected, unlisted columns read as NULL instead of being refused, results cached earlier leak (c59_cache_leak)."
  },
  {
   "property": "C60",
   "status": "partial",
   "theorems": [
    "Bedrock.Compression.Props.c60_sql_round_trip_partial",
    "Bedrock.Compression.Props.c60_cpp_round_trip_partial",
    "Bedrock.Compression.Props.c60_interchangeable",
    "Bedrock.Compression.Props.c60_plain_unchanged",
    "Bedrock.Compression.Props.c60_null",
    "Bedrock.Compression.Props.c60_sql_unknown_is_error",
    "Bedrock.Compression.Props.c60_cpp_unknown_returned",
    "Bedrock.Compression.Props.c60_row_and_own_id",
    "Bedrock.Compression.Props.c60_raw_dictionary",
    "Bedrock.Compression.Props.c60_type_lost",
    "Bedrock.Compression.Props.c60_frame_lookalike"
   ],
   "note": "Round trips hold for dictionaries whose own ID is the row ID, for zstd as assumed in Zstd.Sound. Missing: other dictionaries (c60_row_and_own_id, c60_raw_dictionary), unknown dictionaries in the C++ function (c60_cpp_unknown_returned)."
  },
  {
   "property": "C61",
   "status": "partial",
   "theorems": [
    "Bedrock.RunCommand.Props.c61_at_most_once_partial",
    "Bedrock.RunCommand.Props.c61_stopped_leading_runs_twice",
    "Bedrock.RunCommand.Props.c61_lost_then_offered_again",
    "Bedrock.RunCommand.Props.c61_lost_then_synchronizing",
    "Bedrock.RunCommand.Props.c61_network_requests_once"
   ],
   "note": "Proved for lives in which the node does not lose leadership between the commit and the check after it, does not begin to synchronize after the command was sent, and does not offer it to a second node; three witnesses show double execution otherwise."
  },
  {
   "property": "C62",
   "status": "proved",
   "theorems": [
    "Bedrock.RunCommand.Props.c62_one_handoff",
    "Bedrock.RunCommand.Props.c62_answered_once",
    "Bedrock.RunCommand.Props.c62_never_dropped"
   ],
   "note": "All calls and all lives."
  },
  {
   "property": "C63",
   "status": "partial",
   "theorems": [
    "Bedrock.Forward.Props.c63_sends_a_prefix",
    "Bedrock.Forward.Props.c63_retry_only_if_unsent",
    "Bedrock.Forward.Props.c63_lost_response_is_an_error",
    "Bedrock.Forward.Props.c63_success",
    "Bedrock.Forward.Props.c63_response_unchanged",
    "Bedrock.Forward.Props.c63_peer_runs_nothing_partial",
    "Bedrock.Forward.Props.c63_one_byte_short_runs"
   ],
   "note": "A peer that misses at least two bytes of the request (one if it has content) does not run it; a request without content that misses its last byte is run by the peer and retried here (witness)."
  },
  {
   "property": "C64",
   "status": "proved",
   "theorems": [
    "Bedrock.RunCommand.Props.c64_backoff",
    "Bedrock.RunCommand.Props.c64_bounded_retries",
    "Bedrock.RunCommand.Props.c64_blocking_queue",
    "Bedrock.RunCommand.Props.c64_first_look",
    "Bedrock.RunCommand.Props.c64_first_look_once",
    "Bedrock.RunCommand.Props.c64_expired_turn"
   ],
   "note": "Retry bound needs a node that keeps leading during the call (hypothesis); a node that stops leading between attempts does not count them."
  },
  {
   "property": "C65",
   "status": "partial",
   "theorems": [
    "Bedrock.Handle.Props.c65_followers_agree_partial",
    "Bedrock.Handle.Props.c65_failed_half_is_lost",
    "Bedrock.Handle.Props.c65_busy_runs_twice",
    "Bedrock.Handle.Props.c65_rewritten_half_is_lost",
    "Bedrock.Handle.Props.c65_stale_rewrite_runs",
    "Bedrock.Handle.Props.c65_refused_write_crashes",
    "Bedrock.Handle.Props.c65_randomblob_diverges",
    "Bedrock.Handle.Props.c65_write_through_read"
   ],
   "note": "Followers reproduce the leader over all histories in which reads read, transactions with a half-executed multi-statement write are rolled back, there is no whitelist, and volatile functions are among those refused. Each excluded case has a witness of divergence."
  },
  {
   "property": "C66",
   "status": "proved",
   "theorems": [
    "Bedrock.Handle.Props.c66_never_recorded",
    "Bedrock.Handle.Props.c66_refused",
    "Bedrock.Handle.Props.c66_interrupted_sticks"
   ],
   "note": "Over all histories no committed text calls a refused function; refused writes record nothing. c66_interrupted_sticks shows reads being refused after an interrupted write."
  },
  {
   "property": "C67",
   "status": "partial",
   "theorems": [
    "Bedrock.Https.Props.c67_numbers",
    "Bedrock.Https.Props.c67_round_trip_partial",
    "Bedrock.Https.Props.c67_empty_message",
    "Bedrock.Https.Props.c67_gzip_twice"
   ],
   "note": "For messages that C22 transports. Missing: empty messages (c67_empty_message), gzipped answers (c67_gzip_twice)."
  },
  {
   "property": "C68",
   "status": "proved",
   "theorems": [
    "Bedrock.Https.Props.c68_code_nonzero",
    "Bedrock.Https.Props.c68_code_read",
    "Bedrock.Https.Props.c68_decided",
    "Bedrock.Https.Props.c68_received",
    "Bedrock.Https.Props.c68_gives_up",
    "Bedrock.Https.Props.c68_no_early_answer",
    "Bedrock.Https.Props.c68_complete_iff",
    "Bedrock.Https.Props.c68_waited",
    "Bedrock.Https.Props.c68_wait_ends",
    "Bedrock.Https.Props.c68_answers_kept",
    "Bedrock.Https.Props.c68_no_code"
   ],
   "note": "Over arbitrary turns; polling is assumed not to take a response away, which c68_decided shows of postPoll."
  },
  {
   "property": "C69",
   "status": "partial",
   "theorems": [
    "Bedrock.Crash.Props.c69_report_arrives",
    "Bedrock.Crash.Props.c69_refused_partial",
    "Bedrock.Crash.Props.c69_others_not_refused",
    "Bedrock.Crash.Props.c69_one_report_is_specific_partial",
    "Bedrock.Crash.Props.c69_two_reports_block_all_partial",
    "Bedrock.Crash.Props.c69_cleared",
    "Bedrock.Crash.Props.c69_new_node_learns_partial",
    "Bedrock.Crash.Props.c69_bad_report_blocks_logins",
    "Bedrock.Crash.Props.c69_blank_value_not_refused",
    "Bedrock.Crash.Props.c69_other_spelling_not_refused"
   ],
   "note": "Proved for reports that can be transported (GoodReport, content below 2^31 bytes). Not so in general: a report with a control character in its method line, from anyone, makes every later LOGIN throw; values with blanks at the ends and names in another spelling are not matched."
  },
  {
   "property": "C70",
   "status": "partial",
   "theorems": [
    "Bedrock.Control.Props.c70_remote_unauthorized",
    "Bedrock.Control.Props.c70_remote_changes",
    "Bedrock.Control.Props.c70_open_to_all",
    "Bedrock.Control.Props.c70_others_pass",
    "Bedrock.Control.Props.c70_threads_never_zero",
    "Bedrock.Control.Props.c70_settings_partial",
    "Bedrock.Control.Props.c70_limits",
    "Bedrock.Control.Props.c70_detach",
    "Bedrock.Control.Props.c70_attach",
    "Bedrock.Control.Props.c70_writes",
    "Bedrock.Control.Props.c70_reasons",
    "Bedrock.Control.Props.c70_retries_wrap",
    "Bedrock.Control.Props.c70_priority_wraps",
    "Bedrock.Control.Props.c70_block_writes_hangs",
    "Bedrock.Control.Props.c70_forgives",
    "Bedrock.Control.Props.c70_commit_hash",
    "Bedrock.Control.Props.c70_clear_blocks"
   ],
   "note": "Proved except for the values of settings of 2^31 and more: retries and priorities are cut to 32 bits. BlockWrites without a database is never answered."
  },
  {
   "property": "C71",
   "status": "partial",
   "theorems": [
    "Bedrock.Ports.Props.c71_blocked_means_closed",
    "Bedrock.Ports.Props.c71_each_block_needs_its_unblock",
    "Bedrock.Ports.Props.c71_outstanding_means_closed",
    "Bedrock.Ports.Props.c71_opens",
    "Bedrock.Ports.Props.c71_opens_only",
    "Bedrock.Ports.Props.c71_shutdown_is_final",
    "Bedrock.Ports.Props.c71_detached_is_closed",
    "Bedrock.Ports.Props.c71_clients_sent_away_partial",
    "Bedrock.Ports.Props.c71_flag_survives_reattach",
    "Bedrock.Ports.Props.c71_no_thread_is_undefined",
    "Bedrock.Ports.Props.c71_opens_control"
   ],
   "note": "Proved for all histories, but telling connections to close fails after a re-attach or once the flag is stale (c71_clients_sent_away_partial), and running out of socket threads locks a mutex twice, which is undefined behaviour (c71_no_thread_is_undefined). Opening a port always succeeds in the model; two steps of _beginShutdown are one."
  },
  {
   "property": "C72",
   "status": "proved",
   "theorems": [
    "Bedrock.Waiting.Props.c72_none_lost_none_twice",
    "Bedrock.Waiting.Props.c72_sweep",
    "Bedrock.Waiting.Props.c72_not_early",
    "Bedrock.Waiting.Props.c72_in_commit_order",
    "Bedrock.Waiting.Props.c72_never_behind",
    "Bedrock.Waiting.Props.c72_no_bounce",
    "Bedrock.Waiting.Props.c72_not_delayed"
   ],
   "note": "The two maps and both loops of the sweep; each side runs under the same mutex."
  },
  {
   "property": "C73",
   "status": "partial",
   "theorems": [
    "Bedrock.Reply.Props.c73_answered_partial",
    "Bedrock.Reply.Props.c73_told_iff",
    "Bedrock.Reply.Props.c73_closed_iff",
    "Bedrock.Reply.Props.c73_plugin_header_aborts",
    "Bedrock.Reply.Props.c73_mysql_header_aborts",
    "Bedrock.Reply.Props.c73_escalated_plugin",
    "Bedrock.Reply.Props.c73_close_not_told",
    "Bedrock.Reply.Props.c73_mysql_answered",
    "Bedrock.Reply.Props.c73_plugin_answers"
   ],
   "note": "Proved for requests without a plugin header and responses that can be transported. With such a header any client can make the server abort."
  },
  {
   "property": "C74",
   "status": "partial",
   "theorems": [
    "Bedrock.Ports.Props.c74_blocked_once",
    "Bedrock.Ports.Props.c74_behind_leader_partial",
    "Bedrock.Ports.Props.c74_other_peer_opens"
   ],
   "note": "Proved as long as only the leader's messages arrive; a message of any other peer reopens the port."
  },
  {
   "property": "C75",
   "status": "partial",
   "theorems": [
    "Bedrock.Lifecycle.Props.c75_detached_means_closed",
    "Bedrock.Lifecycle.Props.c75_copy_closed_partial",
    "Bedrock.Lifecycle.Props.c75_stops",
    "Bedrock.Lifecycle.Props.c75_detach_attach",
    "Bedrock.Lifecycle.Props.c75_backup",
    "Bedrock.Lifecycle.Props.c75_ends_partial",
    "Bedrock.Lifecycle.Props.c75_stop_while_detached",
    "Bedrock.Lifecycle.Props.c75_stop_after_backup",
    "Bedrock.Lifecycle.Props.c75_detach_after_attach",
    "Bedrock.Lifecycle.Props.c75_detach_after_bootstrap",
    "Bedrock.Lifecycle.Props.c75_attach_during_backup"
   ],
   "note": "Detached means closed, stopping, detaching and backing up from a running server are proved for all histories. Not so: a stop while detached or just after a backup never ends, Detach before the sync thread has woken up wedges the server, Attach during a backup opens the database."
  },
  {
   "property": "C76",
   "status": "partial",
   "theorems": [
    "Bedrock.Jobs.Props.c76_stays_mocked_partial",
    "Bedrock.Jobs.Props.c76_fail_unmarks",
    "Bedrock.Jobs.Props.c76_created_mocked",
    "Bedrock.Jobs.Props.c76_child_of_mocked",
    "Bedrock.Jobs.Props.c76_parent_decides",
    "Bedrock.Jobs.Props.c76_mocked_parent"
   ],
   "note": "FailJob with new data removes the mark (witness); proved for all histories without such a FailJob and without re-creating a job under the same ID."
  },
  {
   "property": "C77",
   "status": "partial",
   "theorems": [
    "Bedrock.Jobs.Props.c77_understood_iff",
    "Bedrock.Jobs.Props.c77_accepted_iff",
    "Bedrock.Jobs.Props.c77_named",
    "Bedrock.Jobs.Props.c77_for_ever",
    "Bedrock.Jobs.Props.c77_offsets",
    "Bedrock.Jobs.Props.c77_text_on_grid",
    "Bedrock.Jobs.Props.c77_scheduled_flag",
    "Bedrock.Jobs.Props.c77_retry_accepted",
    "Bedrock.Jobs.Props.c77_retry_list"
   ],
   "note": "repeat: proved. retryAfter: the check accepts lists, a bare comma and leading blanks that give no date (witness)."
  },
  {
   "property": "C78",
   "status": "partial",
   "theorems": [
    "Bedrock.Http.Props.c78_round_trip_partial",
    "Bedrock.Http.Props.c78_first_backslash"
   ],
   "note": "Proved for cookies on one line without the byte 255 or blanks at the ends, the first without a backslash (witness); line breaks forge headers (c24_cookie_injects)."
  },
  {
   "property": "C79",
   "status": "partial",
   "theorems": [
    "Bedrock.Http.Props.c79_body",
    "Bedrock.Http.Props.c79_waits",
    "Bedrock.Http.Props.c79_huge_chunk",
    "Bedrock.Http.Props.c79_nine_digits",
    "Bedrock.Http.Props.c79_folded"
   ],
   "note": "Proved for sizes of up to eight digits and below 2^31 (witnesses beyond), without trailers; a message that lacks only its last byte is taken early as in C23."
  },
  {
   "property": "C80",
   "status": "partial",
   "theorems": [
    "Bedrock.Deburr.Props.c80_exact",
    "Bedrock.Deburr.Props.c80_chars_partial",
    "Bedrock.Deburr.Props.c80_left_out",
    "Bedrock.Deburr.Props.c80_idempotent",
    "Bedrock.Deburr.Props.c80_malformed",
    "Bedrock.Deburr.Props.c80_not_longer"
   ],
   "note": "Exact for every text (c80_exact); fourteen letters are wrong in the table of the code (c80_left_out, examples), malformed text is not idempotent (c80_malformed)."
  },
  {
   "property": "C81",
   "status": "partial",
   "theorems": [
    "Bedrock.Results.Props.c81_round_trip_partial",
    "Bedrock.Results.Props.c81_no_names",
    "Bedrock.Results.Props.c81_ragged_refused",
    "Bedrock.Results.Props.c81_array_form",
    "Bedrock.Results.Props.c81_order_of_text",
    "Bedrock.Results.Props.c81_null"
   ],
   "note": "Round trip for the strings that C30 keeps; the other strings are changed by the JSON writer (C30). NULL and the empty string are not told apart; in the array form values are matched by position (c81_order_of_text)."
  },
  {
   "property": "C82",
   "status": "proved",
   "theorems": [
    "Bedrock.Results.Props.c82_csv",
    "Bedrock.Results.Props.c82_lossless",
    "Bedrock.Results.Props.c82_null_is_empty"
   ],
   "note": "Every result, any bytes. NULL is written like the empty string (c82_null_is_empty), against the comment in the code."
  },
  {
   "property": "C83",
   "status": "partial",
   "theorems": [
    "Bedrock.Results.Props.c83_numeric",
    "Bedrock.Results.Props.c83_quote",
    "Bedrock.Results.Props.c83_list_partial",
    "Bedrock.Results.Props.c83_list_ambiguous",
    "Bedrock.Results.Props.c83_tabs_partial",
    "Bedrock.Results.Props.c83_tabs_ambiguous"
   ],
   "note": "Quote form in full (c83_quote, c83_numeric); list and tabs only without separators in cells, as these forms do not quote (c83_list_ambiguous, c83_tabs_ambiguous)."
  },
  {
   "property": "C84",
   "status": "proved",
   "theorems": [
    "Bedrock.Results.Props.c84_defined_iff",
    "Bedrock.Results.Props.c84_aligned",
    "Bedrock.Results.Props.c84_lines",
    "Bedrock.Results.Props.c84_no_tabs",
    "Bedrock.Results.Props.c84_tab_stops",
    "Bedrock.Results.Props.c84_name_with_newline",
    "Bedrock.Results.Props.c84_width",
    "Bedrock.Results.Props.c84_tab",
    "Bedrock.Results.Props.c84_utf8_kept",
    "Bedrock.Results.Props.c84_latin1_lost",
    "Bedrock.Results.Props.c84_row_height"
   ],
   "note": "For every result with no row wider than the column names; otherwise the code is undefined (c84_defined_iff). Column names with line feeds are not split (c84_name_with_newline)."
  },
  {
   "property": "C85",
   "status": "partial",
   "theorems": [
    "Bedrock.Log.Props.c85_nothing_leaks",
    "Bedrock.Log.Props.c85_line",
    "Bedrock.Log.Props.c85_throws_iff",
    "Bedrock.Log.Props.c85_spelling_and_quotes",
    "Bedrock.Log.Props.c85_pieces",
    "Bedrock.Log.Props.c85_nul_cuts",
    "Bedrock.Log.Props.c85_direct_partial",
    "Bedrock.Log.Props.c85_direct_full",
    "Bedrock.Log.Props.c85_long_id_reads_past_the_end",
    "Bedrock.Log.Props.c85_tagged",
    "Bedrock.Log.Props.c85_one_record_per_line",
    "Bedrock.Log.Props.c85_fluentd_reads_partial",
    "Bedrock.Log.Props.c85_record",
    "Bedrock.Log.Props.c85_parameter_replaces_field",
    "Bedrock.Log.Props.c85_each_record_once",
    "Bedrock.Log.Props.c85_whole_records",
    "Bedrock.Log.Props.c85_list_only_grows",
    "Bedrock.Log.Props.c85_list_only_what_was_asked",
    "Bedrock.Log.Props.c85_list_progress"
   ],
   "note": "What may be logged, pieces, records and the queue are proved; the direct syslog writer only for prefixes that fit its buffer (negation proved for longer ones), and reading a record back for strings the JSON model reads back (C30)."
  },
  {
   "property": "C86",
   "status": "proved",
   "theorems": [
    "Bedrock.SocketPool.Props.c86_one_user",
    "Bedrock.SocketPool.Props.c86_none_leaked",
    "Bedrock.SocketPool.Props.c86_handed_out_alive",
    "Bedrock.SocketPool.Props.c86_expired_are_closed",
    "Bedrock.SocketPool.Props.c86_no_missed_wakeup",
    "Bedrock.SocketPool.Props.c86_destructor_ends",
    "Bedrock.SocketPool.Props.c86_ended_stays",
    "Bedrock.SocketPool.Props.c86_old_connection_handed_out"
   ],
   "note": "All interleavings of threads, timer and destructor; reuse of a connection older than the timeout is possible before the timer runs and shown by a witness."
  },
  {
   "property": "C87",
   "status": "partial",
   "theorems": [
    "Bedrock.Address.Props.c87_form_partial",
    "Bedrock.Address.Props.c87_form_empty_throws",
    "Bedrock.Address.Props.c87_form_value_changed",
    "Bedrock.Address.Props.c87_form_last_wins",
    "Bedrock.Address.Props.c87_url",
    "Bedrock.Address.Props.c87_url_only",
    "Bedrock.Address.Props.c87_host",
    "Bedrock.Address.Props.c87_host_only",
    "Bedrock.Address.Props.c87_port_not_checked"
   ],
   "note": "Forms for values without NUL, byte 255 and leading blank (witnesses show what happens to others); URLs and hosts in full."
  },
  {
   "property": "C88",
   "status": "proved",
   "theorems": [
    "Bedrock.Address.Props.c88_options",
    "Bedrock.Address.Props.c88_every_line",
    "Bedrock.Address.Props.c88_defaults",
    "Bedrock.Address.Props.c88_negative_value",
    "Bedrock.Address.Props.c88_peers",
    "Bedrock.Address.Props.c88_peers_checked"
   ],
   "note": "All command lines; peer lists written with the form encoding of C87; invalid addresses refused."
  },
  {
   "property": "C89",
   "status": "partial",
   "theorems": [
    "Bedrock.Sockets.Props.c89_in_order",
    "Bedrock.Sockets.Props.c89_nothing_lost",
    "Bedrock.Sockets.Props.c89_tls_partial",
    "Bedrock.Sockets.Props.c89_tls_one_request",
    "Bedrock.Sockets.Props.c89_tls_lost",
    "Bedrock.Sockets.Props.c89_shutdown_drops",
    "Bedrock.Sockets.Props.c89_final",
    "Bedrock.Sockets.Props.c89_closes_iff",
    "Bedrock.Sockets.Props.c89_connect_failed",
    "Bedrock.Sockets.Props.c89_still_connecting",
    "Bedrock.Sockets.Props.c89_hangup",
    "Bedrock.Sockets.Props.c89_asks",
    "Bedrock.Sockets.Props.c89_progress",
    "Bedrock.Sockets.Props.c89_handshake_not_asked",
    "Bedrock.Sockets.Props.c89_shutdown_ends",
    "Bedrock.Sockets.Props.c89_move",
    "Bedrock.Sockets.Props.c89_read_capped"
   ],
   "note": "Plain sockets are complete; over TLS under the condition that no bytes are added while a record waits to be flushed (violated: c89_tls_lost). What waits when a socket is shut down is lost (c89_shutdown_drops)."
  },
  {
   "property": "C90",
   "status": "proved",
   "theorems": [
    "Bedrock.Sockets.Props.c90_received",
    "Bedrock.Sockets.Props.c90_received_tls",
    "Bedrock.Sockets.Props.c90_proxy_clear",
    "Bedrock.Sockets.Props.c90_tunnel",
    "Bedrock.Sockets.Props.c90_one_request",
    "Bedrock.Sockets.Props.c90_refused",
    "Bedrock.Sockets.Props.c90_waiting_spins",
    "Bedrock.Sockets.Props.c90_refusal_is_success",
    "Bedrock.Sockets.Props.c90_session_throws",
    "Bedrock.Sockets.Props.c90_connect_text",
    "Bedrock.Sockets.Props.c90_reply_discarded"
   ],
   "note": "Limits of the code as theorems: a proxy reply without a reason is taken for the answer of the server (c90_refusal_is_success), c90_waiting_spins, c90_session_throws."
  },
  {
   "property": "C91",
   "status": "proved",
   "theorems": [
    "Bedrock.Peers.Props.c91_one_owner",
    "Bedrock.Peers.Props.c91_history",
    "Bedrock.Peers.Props.c91_present",
    "Bedrock.Peers.Props.c91_nothing_lost"
   ],
   "note": "Message handlers are an arbitrary function of the history; which bytes and states the sockets find are inputs of each round."
  },
  {
   "property": "C92",
   "status": "proved",
   "theorems": [
    "Bedrock.Peers.Props.c92_heard",
    "Bedrock.Peers.Props.c92_silent_cut",
    "Bedrock.Peers.Props.c92_peer_kills",
    "Bedrock.Peers.Props.c92_ping_rare",
    "Bedrock.Peers.Props.c92_not_cut_early",
    "Bedrock.Peers.Props.c92_announced",
    "Bedrock.Peers.Props.c92_stranger_kills",
    "Bedrock.Peers.Props.c92_trickle",
    "Bedrock.Peers.Props.c92_peer_blocked",
    "Bedrock.Peers.Props.c92_connected",
    "Bedrock.Peers.Props.c92_unconnected",
    "Bedrock.Peers.Props.c92_back",
    "Bedrock.Peers.Props.c92_waiting"
   ],
   "note": "Limits of the code are stated as theorems: c92_stranger_kills, c92_trickle, c92_peer_blocked."
  },
  {
   "property": "C93",
   "status": "proved",
   "theorems": [
    "Bedrock.Conn.Props.c93_in_order",
    "Bedrock.Conn.Props.c93_one_at_a_time",
    "Bedrock.Conn.Props.c93_replies",
    "Bedrock.Conn.Props.c93_bytes",
    "Bedrock.Conn.Props.c93_started",
    "Bedrock.Conn.Props.c93_abort",
    "Bedrock.Conn.Props.c93_stream",
    "Bedrock.Conn.Props.c93_one_per_read",
    "Bedrock.Conn.Props.c93_served",
    "Bedrock.Conn.Props.c93_pipelined_waits",
    "Bedrock.Conn.Props.c93_idle_shutdown",
    "Bedrock.Conn.Props.c93_trickle",
    "Bedrock.Conn.Props.c93_gives_up",
    "Bedrock.Conn.Props.c93_forget_last",
    "Bedrock.Conn.Props.c93_no_thread_undefined",
    "Bedrock.Conn.Props.c93_forget",
    "Bedrock.Conn.Props.c93_forget_overwritten",
    "Bedrock.Conn.Props.c93_last_answer",
    "Bedrock.Conn.Props.c93_last_answer_at_once"
   ],
   "note": "In order, one at a time, answered in order, for all splittings and interleavings. Limits as theorems: one request per read, so a pipelined request may wait for ever; no thread for a command is undefined behaviour; a trickling client outlives a shutdown."
  },
  {
   "property": "C94",
   "status": "partial",
   "theorems": [
    "Bedrock.Query.Props.c94_args",
    "Bedrock.Query.Props.c94_any_args",
    "Bedrock.Query.Props.c94_args_limits",
    "Bedrock.Query.Props.c94_look",
    "Bedrock.Query.Props.c94_caret",
    "Bedrock.Query.Props.c94_message_defined",
    "Bedrock.Query.Props.c94_cuts_character",
    "Bedrock.Query.Props.c94_wrong_statement",
    "Bedrock.Query.Props.c94_schema",
    "Bedrock.Query.Props.c94_schema_query",
    "Bedrock.Query.Props.c94_schema_semicolon",
    "Bedrock.Query.Props.c94_message",
    "Bedrock.Query.Props.c94_is_query",
    "Bedrock.Query.Props.c94_peek_reads",
    "Bedrock.Query.Props.c94_escalates",
    "Bedrock.Query.Props.c94_refused",
    "Bedrock.Query.Props.c94_json",
    "Bedrock.Query.Props.c94_text",
    "Bedrock.Query.Props.c94_headers",
    "Bedrock.Query.Props.c94_row_id"
   ],
   "note": "Proved: splitting and meaning of arguments, window and caret for the first statement, .schema rewriting, when a query escalates, is refused, what JSON and text answers contain. Disagreements with witnesses: text format runs only the first of several statements (c94_text); caret wrong for errors in later statements (c94_wrong_statement); snippet may end inside a character (c94_cuts_character); '.schema foo;' looks for 'foo;'; empty quoted arguments are lost (c94_args_limits); row id only for 'INSERT ' (c94_row_id)."
  },
  {
   "property": "C95",
   "status": "partial",
   "theorems": [
    "Bedrock.Edit.Props.c95_collapse",
    "Bedrock.Edit.Props.c95_nul_cuts",
    "Bedrock.Edit.Props.c95_strip",
    "Bedrock.Edit.Props.c95_strip_unprintable",
    "Bedrock.Edit.Props.c95_replace",
    "Bedrock.Edit.Props.c95_replace_nothing",
    "Bedrock.Edit.Props.c95_replace_same",
    "Bedrock.Edit.Props.c95_remove_byte",
    "Bedrock.Edit.Props.c95_replace_leaves",
    "Bedrock.Edit.Props.c95_replace_all",
    "Bedrock.Edit.Props.c95_cut",
    "Bedrock.Edit.Props.c95_no_cut",
    "Bedrock.Edit.Props.c95_between",
    "Bedrock.Edit.Props.c95_after_last",
    "Bedrock.Edit.Props.c95_after_none",
    "Bedrock.Edit.Props.c95_after_last_set",
    "Bedrock.Edit.Props.c95_ends",
    "Bedrock.Edit.Props.c95_state",
    "Bedrock.Edit.Props.c95_ints",
    "Bedrock.Edit.Props.c95_int_set",
    "Bedrock.Edit.Props.c95_base32_hex",
    "Bedrock.Edit.Props.c95_base32_bytes",
    "Bedrock.Edit.Props.c95_hex_from_32",
    "Bedrock.Edit.Props.c95_hex_from_32_lenient",
    "Bedrock.Edit.Props.c95_digit"
   ],
   "note": "Proved for every text without NUL. Disagreements with witnesses: SCollapse and SStrip lose everything behind a NUL (c95_nul_cuts); SAfterLastOf takes its needle as a set (c95_after_last_set); base 32 conversion reads outside its table for bytes below '2', the backslash and bytes of 128 and more (c95_base32_bytes); SHexStringFromBase32 accepts non-digits (c95_hex_from_32_lenient); one pass of SReplace may leave the text (c95_replace_leaves)."
  },
  {
   "property": "C96",
   "status": "partial",
   "theorems": [
    "Bedrock.Schema.Props.c96_table_there",
    "Bedrock.Schema.Props.c96_table_missing",
    "Bedrock.Schema.Props.c96_semicolon",
    "Bedrock.Schema.Props.c96_twice",
    "Bedrock.Schema.Props.c96_if_not_exists",
    "Bedrock.Schema.Props.c96_blanks_in_literals",
    "Bedrock.Schema.Props.c96_rebuild",
    "Bedrock.Schema.Props.c96_index_there",
    "Bedrock.Schema.Props.c96_index_missing",
    "Bedrock.Schema.Props.c96_index_limits",
    "Bedrock.Schema.Props.c96_column",
    "Bedrock.Schema.Props.c96_column_twice",
    "Bedrock.Schema.Props.c96_column_limits"
   ],
   "note": "Proved over an abstract engine (Faithful, satisfied by the engine small). Disagreements with witnesses: a text with IF NOT EXISTS never passes again (c96_if_not_exists); white space in literals does not count (c96_blanks_in_literals); index literals compared without case (c96_index_limits); addColumn does not see a first column right behind the parenthesis and ends the process, and takes any word for a column (c96_column_limits)."
  },
  {
   "property": "C97",
   "status": "partial",
   "theorems": [
    "Bedrock.SyncLoop.Props.c97_one_upgrade",
    "Bedrock.SyncLoop.Props.c97_start",
    "Bedrock.SyncLoop.Props.c97_no_more_partial",
    "Bedrock.SyncLoop.Props.c97_one_more",
    "Bedrock.SyncLoop.Props.c97_upgraded_twice",
    "Bedrock.SyncLoop.Props.c97_retried",
    "Bedrock.SyncLoop.Props.c97_ready",
    "Bedrock.SyncLoop.Props.c97_write_after_upgrade_partial",
    "Bedrock.SyncLoop.Props.c97_write_before_upgrade",
    "Bedrock.SyncLoop.Props.c97_conserved",
    "Bedrock.SyncLoop.Props.c97_ended",
    "Bedrock.SyncLoop.Props.c97_abandoned",
    "Bedrock.SyncLoop.Props.c97_only_upgrade_left",
    "Bedrock.SyncLoop.Props.c97_node_stops_last",
    "Bedrock.SyncLoop.Props.c97_stops",
    "Bedrock.SyncLoop.Props.c97_gives_back",
    "Bedrock.SyncLoop.Props.c97_aside",
    "Bedrock.SyncLoop.Props.c97_shutdown_waits"
   ],
   "note": "proved but for two races of the code: an upgrade finished by a worker between two reads of the sync thread is started once more (c97_upgraded_twice), and a node that starts to lead between two reads lets a command write before the upgrade (c97_write_before_upgrade)"
  },
  {
   "property": "C98",
   "status": "partial",
   "theorems": [
    "Bedrock.ReplQueue.Props.c98_prefix",
    "Bedrock.ReplQueue.Props.c98_conserved",
    "Bedrock.ReplQueue.Props.c98_all_applied",
    "Bedrock.ReplQueue.Props.c98_ten_seconds",
    "Bedrock.ReplQueue.Props.c98_dropped",
    "Bedrock.ReplQueue.Props.c98_deadline",
    "Bedrock.ReplQueue.Props.c98_quiet",
    "Bedrock.ReplQueue.Props.c98_fresh",
    "Bedrock.ReplQueue.Props.c98_wakeup",
    "Bedrock.ReplQueue.Props.c98_following",
    "Bedrock.ReplQueue.Props.c98_survives",
    "Bedrock.ReplQueue.Props.c98_progress",
    "Bedrock.ReplQueue.Props.c98_leaves",
    "Bedrock.ReplQueue.Props.c98_no_null_partial",
    "Bedrock.ReplQueue.Props.c98_null",
    "Bedrock.ReplQueue.Props.c98_every_tenth",
    "Bedrock.ReplQueue.Props.c98_permafollower",
    "Bedrock.ReplQueue.Props.c98_statuses",
    "Bedrock.ReplQueue.Props.c98_ignored",
    "Bedrock.ReplQueue.Props.c98_received"
   ],
   "note": "Proved for all interleavings, except that the process survives: c98_null shows that a leader lost between two reads of its pointer makes the replication thread use a null pointer; c98_no_null_partial: only then."
  },
  {
   "property": "C99",
   "status": "proved",
   "theorems": [
    "Bedrock.Timing.Props.c99_own",
    "Bedrock.Timing.Props.c99_upstream",
    "Bedrock.Timing.Props.c99_others",
    "Bedrock.Timing.Props.c99_total",
    "Bedrock.Timing.Props.c99_accounted",
    "Bedrock.Timing.Props.c99_names",
    "Bedrock.Timing.Props.c99_reported",
    "Bedrock.Timing.Props.c99_clock_back",
    "Bedrock.Timing.Props.c99_life",
    "Bedrock.Timing.Props.c99_bounded",
    "Bedrock.Timing.Props.c99_two_hops",
    "Bedrock.Timing.Props.c99_request_id",
    "Bedrock.Timing.Props.c99_request_rest",
    "Bedrock.Timing.Props.c99_request_any"
   ],
   "note": "For a clock that does not go back; c99_clock_back is the other case."
  },
  {
   "property": "C100",
   "status": "partial",
   "theorems": [
    "Bedrock.MySQL.Props.c100_variables_count",
    "Bedrock.MySQL.Props.c100_variable_unanswered",
    "Bedrock.MySQL.Props.c100_show_variables",
    "Bedrock.MySQL.Props.c100_call",
    "Bedrock.MySQL.Props.c100_call_alias",
    "Bedrock.MySQL.Props.c100_columns",
    "Bedrock.MySQL.Props.c100_columns_wrong_table",
    "Bedrock.MySQL.Props.c100_foreign_shadowed",
    "Bedrock.MySQL.Props.c100_foreign",
    "Bedrock.MySQL.Props.c100_keys",
    "Bedrock.MySQL.Props.c100_keys_bare",
    "Bedrock.MySQL.Props.c100_done",
    "Bedrock.MySQL.Props.c100_rows",
    "Bedrock.MySQL.Props.c100_error",
    "Bedrock.MySQL.Props.c100_sequence",
    "Bedrock.MySQL.Props.c100_sequence_lost",
    "Bedrock.MySQL.Props.c100_abort",
    "Bedrock.MySQL.Props.c100_empty_answer",
    "Bedrock.MySQL.Props.c100_variable_iff",
    "Bedrock.MySQL.Props.c100_foreign_first",
    "Bedrock.MySQL.Props.c100_sources",
    "Bedrock.MySQL.Props.c100_passed_on",
    "Bedrock.MySQL.Props.c100_writes_partial",
    "Bedrock.MySQL.Props.c100_write_lost",
    "Bedrock.MySQL.Props.c100_translated",
    "Bedrock.MySQL.Props.c100_one_statement",
    "Bedrock.MySQL.Props.c100_semicolon",
    "Bedrock.MySQL.Props.c100_call_iff",
    "Bedrock.MySQL.Props.c100_word"
   ],
   "note": "What fails, each proved on the model: a write that merely contains information_schema.tables, information_schema or show keys from is not run (c100_write_lost); questions for single variables are never answered with a row (c100_variable_unanswered); a columns question that names the column before comparing it asks for another table (c100_columns_wrong_table); foreign key questions in small letters are answered with nothing (c100_foreign_shadowed); the empty answer reads as OK (c100_empty_answer); only packets numbered 0 are answered with the right number (c100_sequence_lost); an answer that is not JSON ends the process (c100_abort). Proved in full: statements of the plain kinds are passed on word for word, translations are one statement with the name in one literal, the names read, and the answers as a client reads them."
  },
  {
   "property": "C101",
   "status": "partial",
   "theorems": [
    "Bedrock.Plugins.Props.c101_order",
    "Bedrock.Plugins.Props.c101_all_or_nothing",
    "Bedrock.Plugins.Props.c101_path",
    "Bedrock.Plugins.Props.c101_so_file",
    "Bedrock.Plugins.Props.c101_one_plugin",
    "Bedrock.Plugins.Props.c101_dispatch",
    "Bedrock.Plugins.Props.c101_nobody",
    "Bedrock.Plugins.Props.c101_throws",
    "Bedrock.Plugins.Props.c101_verbs",
    "Bedrock.Plugins.Props.c101_query_line",
    "Bedrock.Plugins.Props.c101_request_forgotten",
    "Bedrock.Plugins.Props.c101_name_kept",
    "Bedrock.Plugins.Props.c101_nodes_differ",
    "Bedrock.Plugins.Props.c101_names_differ_partial",
    "Bedrock.Plugins.Props.c101_names_repeat",
    "Bedrock.Plugins.Props.c101_name_chosen",
    "Bedrock.Plugins.Props.c101_version_order",
    "Bedrock.Plugins.Props.c101_version_plugins",
    "Bedrock.Plugins.Props.c101_version_names",
    "Bedrock.Plugins.Props.c101_file"
   ],
   "note": "Names are not unique across restarts of a node (c101_names_repeat), and a client may choose one (c101_name_chosen). When the constructor of a command throws, its request is forgotten and Connection: close is not obeyed (c101_request_forgotten); no bundled plugin throws there. A library given as name.so without a path is never loaded and the node does not start (c101_so_file). A base name that is empty or begins with a blank is outside c101_all_or_nothing."
  },
  {
   "property": "C102",
   "status": "partial",
   "theorems": [
    "Bedrock.Redact.Props.c102_token_gone",
    "Bedrock.Redact.Props.c102_token_hidden",
    "Bedrock.Redact.Props.c102_cipher_gone",
    "Bedrock.Redact.Props.c102_untouched",
    "Bedrock.Redact.Props.c102_html_hidden",
    "Bedrock.Redact.Props.c102_edits_hidden",
    "Bedrock.Redact.Props.c102_long_chat_logged",
    "Bedrock.Redact.Props.c102_edits_not_hidden",
    "Bedrock.Redact.Props.c102_html_not_hidden"
   ],
   "note": "Proved for tokens and encrypted values without restriction; for chats and edits if there is no newline, no closing bracket inside an edit, and the closing quote is within the first 200000 bytes. Otherwise the code logs them: c102_long_chat_logged, c102_html_not_hidden, c102_edits_not_hidden. Some other places log statements without redaction (DESIGN.md)."
  },
  {
   "property": "C103",
   "status": "proved",
   "theorems": [
    "Bedrock.Interrupt.Props.c103_read_whole",
    "Bedrock.Interrupt.Props.c103_write_whole",
    "Bedrock.Interrupt.Props.c103_not_early",
    "Bedrock.Interrupt.Props.c103_cleared",
    "Bedrock.Interrupt.Props.c103_gone",
    "Bedrock.Interrupt.Props.c103_watches",
    "Bedrock.Interrupt.Props.c103_no_row_after",
    "Bedrock.Interrupt.Props.c103_sticky",
    "Bedrock.Interrupt.Props.c103_commits",
    "Bedrock.Interrupt.Props.c103_abort_heeded",
    "Bedrock.Interrupt.Props.c103_detached_ignored"
   ],
   "note": "For limits that do not wrap 64 bits and a flag that is never reset, as in the code."
  },
  {
   "property": "C104",
   "status": "partial",
   "theorems": [
    "Bedrock.Crypto.Props.c104_decrypt_padded",
    "Bedrock.Crypto.Props.c104_decrypt",
    "Bedrock.Crypto.Props.c104_roundtrip",
    "Bedrock.Crypto.Props.c104_injective",
    "Bedrock.Crypto.Props.c104_decrypt_total",
    "Bedrock.Crypto.Props.c104_hmac",
    "Bedrock.Crypto.Props.c104_long_key",
    "Bedrock.Crypto.Props.c104_short_vector"
   ],
   "note": "Proved for every block cipher whose decryption undoes its encryption and every hash function: round trip of texts without NUL, injectivity, decryption never leaves its buffers, and HMAC for keys of up to 64 bytes. Missing because the code does not: keys of more than 64 bytes (written past the pads, c104_long_key), vectors of fewer than 15 bytes when encrypting (read past their end, c104_short_vector)."
  },
  {
   "property": "C105",
   "status": "partial",
   "theorems": [
    "Bedrock.Files.Props.c105_save_load",
    "Bedrock.Files.Props.c105_save_failed",
    "Bedrock.Files.Props.c105_copy",
    "Bedrock.Files.Props.c105_copy_failed",
    "Bedrock.Files.Props.c105_delete",
    "Bedrock.Files.Props.c105_clean",
    "Bedrock.Files.Props.c105_backup",
    "Bedrock.Files.Props.c105_backup_failed",
    "Bedrock.Files.Props.c105_read_error",
    "Bedrock.Files.Props.c105_load_partial",
    "Bedrock.Files.Props.c105_close_error",
    "Bedrock.Files.Props.c105_same_file",
    "Bedrock.Files.Props.c105_backup_in_place",
    "Bedrock.Files.Props.c105_wal2",
    "Bedrock.Files.Props.c105_stale_wal"
   ],
   "note": "Proved: save and load, failed saves, copies and backups against arbitrary failures to open and write, delete, -clean. Missing because the code does not: a read error half way is reported as success (c105_read_error, c105_load_partial), so is a failing fclose (c105_close_error), a copy onto itself and hence a backup of a database kept in /var/tmp empties the file (c105_same_file, c105_backup_in_place), the second write-ahead log is not backed up (c105_wal2), and a log left by an earlier backup stays beside the new copy (c105_stale_wal)."
  },
  {
   "property": "C106",
   "status": "partial",
   "theorems": [
    "Bedrock.Rows.Props.c106_by_name",
    "Bedrock.Rows.Props.c106_assign",
    "Bedrock.Rows.Props.c106_query",
    "Bedrock.Rows.Props.c106_each_column",
    "Bedrock.Rows.Props.c106_by_number",
    "Bedrock.Rows.Props.c106_value",
    "Bedrock.Rows.Props.c106_null",
    "Bedrock.Rows.Props.c106_cached",
    "Bedrock.Rows.Props.c106_first",
    "Bedrock.Rows.Props.c106_copy_dangles",
    "Bedrock.Rows.Props.c106_copy_misnames",
    "Bedrock.Rows.Props.c106_last_names",
    "Bedrock.Rows.Props.c106_wrong_name",
    "Bedrock.Rows.Props.c106_text_cut"
   ],
   "note": "Proved for results that are created, assigned and read as they are meant to be. The full statement is false of the code: a result made by the copy constructor has rows that still look names up in the original (c106_copy_dangles, c106_copy_misnames); the rows of several statements all have the last one's names (c106_last_names, c106_wrong_name); text with a NUL byte is cut there (c106_text_cut)."
  },
  {
   "property": "C107",
   "status": "proved",
   "theorems": [
    "Bedrock.Blacklist.Props.c107_refused",
    "Bedrock.Blacklist.Props.c107_request",
    "Bedrock.Blacklist.Props.c107_no_echo",
    "Bedrock.Blacklist.Props.c107_only_named",
    "Bedrock.Blacklist.Props.c107_no_loop",
    "Bedrock.Blacklist.Props.c107_kept",
    "Bedrock.Blacklist.Props.c107_arrives",
    "Bedrock.Blacklist.Props.c107_login",
    "Bedrock.Blacklist.Props.c107_not_handed_out",
    "Bedrock.Blacklist.Props.c107_comes_back"
   ],
   "note": "GLOB is any relation between patterns and names. Beside the statement: enabling all jobs again while a node is unreachable is undone when that node logs in (c107_comes_back)."
  },
  {
   "property": "C108",
   "status": "partial",
   "theorems": [
    "Bedrock.Conflict.Props.c108_page",
    "Bedrock.Conflict.Props.c108_row",
    "Bedrock.Conflict.Props.c108_other",
    "Bedrock.Conflict.Props.c108_own",
    "Bedrock.Conflict.Props.c108_commit",
    "Bedrock.Conflict.Props.c108_lock",
    "Bedrock.Conflict.Props.c108_off",
    "Bedrock.Conflict.Props.c108_stale",
    "Bedrock.Conflict.Props.c108_journal_name",
    "Bedrock.Conflict.Props.c108_key_cut",
    "Bedrock.Conflict.Props.c108_newline",
    "Bedrock.Conflict.Props.c108_lines",
    "Bedrock.Conflict.Props.c108_newline_kept"
   ],
   "note": "Proved for messages of the two documented forms whose names and keys have no separator in them. Not true of the code beyond that: after a conflict on a journal the lock of an earlier conflict stays (c108_stale); any table named journal... is left out (c108_journal_name); keys are cut at white space (c108_key_cut); a newline in a key makes conflicts on one row have different locks (c108_newline). The texts SQLite logs are taken from the comments in SQLite.cpp."
  },
  {
   "property": "C109",
   "status": "partial",
   "theorems": [
    "Bedrock.OpenDB.Props.c109_history",
    "Bedrock.OpenDB.Props.c109_unchanged",
    "Bedrock.OpenDB.Props.c109_count",
    "Bedrock.OpenDB.Props.c109_view",
    "Bedrock.OpenDB.Props.c109_format",
    "Bedrock.OpenDB.Props.c109_wait",
    "Bedrock.OpenDB.Props.c109_any_columns",
    "Bedrock.OpenDB.Props.c109_view_taken",
    "Bedrock.OpenDB.Props.c109_case",
    "Bedrock.OpenDB.Props.c109_short"
   ],
   "note": "Proved as long as users stay away from names that begin with journal (in any case) and journalTables is in range. Otherwise the code differs: a user's table with the name of the next journal becomes one whatever its columns (c109_any_columns), a table journalEntries or Journal makes every start end the process (c109_view_taken, c109_case), and the format of a file of less than 31 bytes is read from uninitialised memory (c109_short)."
  },
  {
   "property": "C110",
   "status": "partial",
   "theorems": [
    "Bedrock.Signal.Props.c110_once",
    "Bedrock.Signal.Props.c110_sigsys",
    "Bedrock.Signal.Props.c110_only_when_told",
    "Bedrock.Signal.Props.c110_ends",
    "Bedrock.Signal.Props.c110_asked",
    "Bedrock.Signal.Props.c110_lost",
    "Bedrock.Signal.Props.c110_lost_twice",
    "Bedrock.Signal.Props.c110_other_signal",
    "Bedrock.Signal.Props.c110_realtime",
    "Bedrock.Signal.Props.c110_crash_signals"
   ],
   "note": "Proved: each signal is noted once (c110_once), the process ends only when told (c110_only_when_told), the server is asked to stop and the process ends in a bounded number of steps (c110_asked, c110_ends). The last sentence of the statement is false: a SIGTERM in a window of the main loop is cleared (c110_lost, c110_lost_twice), other signals stop the server but leave the process in a loop (c110_other_signal), and numbers from 31 on are shifted out of an int (c110_sigsys, c110_realtime)."
  },
  {
   "property": "C111",
   "status": "partial",
   "theorems": [
    "Bedrock.Session.Props.c111_own_writes",
    "Bedrock.Session.Props.c111_monotonic_partial",
    "Bedrock.Session.Props.c111_one_history",
    "Bedrock.Session.Props.c111_not_monotonic",
    "Bedrock.Session.Props.c111_failover"
   ],
   "note": "Own writes are read and one history is seen, as long as no election loses a commit (c111_own_writes, c111_one_history). A later command sees what an earlier one saw except possibly the last commit (c111_monotonic_partial, witness c111_not_monotonic). A leader lost before its commits were sent loses answered writes (c111_failover)."
  },
  {
   "property": "C112",
   "status": "proved",
   "theorems": [
    "Bedrock.Net.Props.c112_one_leader",
    "Bedrock.Net.Props.c112_two_leaders",
    "Bedrock.Net.Props.c112_login_vote_not_counted"
   ],
   "note": "Messages arrive in order per connection; PING and PONG are left out. No node is a permafollower. c112_two_leaders: what happens when one side of a connection learns before the other that it is gone."
  },
  {
   "property": "C113",
   "status": "proved",
   "theorems": [
    "Bedrock.Net.Props.c113_elects"
   ],
   "note": "Timeouts are excluded for the nodes of the majority: the model has no clock, and with a timeout at every step no election ends. What a SUBSCRIPTION_APPROVED does to the database is assumed to leave it as it is, since all have the same commits."
  },
  {
   "property": "C114",
   "status": "partial",
   "theorems": [
    "Bedrock.StandDown.Props.c114_all_sent",
    "Bedrock.StandDown.Props.c114_shutdown_loses_late_commit",
    "Bedrock.StandDown.Props.c114_shutdown_drops_buffer",
    "Bedrock.StandDown.Props.c114_closed_stays"
   ],
   "note": "Proved unless the leader shuts down. Then it closes its sockets before it stops commits: c114_shutdown_loses_late_commit and c114_shutdown_drops_buffer are runs in which a subscriber is not sent a commit, and c114_closed_stays says that nothing leaves a closed socket."
  },
  {
   "property": "C115",
   "status": "partial",
   "theorems": [
    "Bedrock.Net.Props.c115_leader_has_all_partial",
    "Bedrock.Net.Props.c115_raised_priority"
   ],
   "note": "Proved as long as no priority is raised and no connection breaks (c115_leader_has_all_partial). c115_raised_priority: with a raised priority a node leads without a commit of the leader before it."
  },
  {
   "property": "C116",
   "status": "partial",
   "theorems": [
    "Bedrock.Origin.Props.c116_way_partial",
    "Bedrock.Origin.Props.c116_origin",
    "Bedrock.Origin.Props.c116_forged",
    "Bedrock.Origin.Props.c116_peeked",
    "Bedrock.Origin.Props.c116_peeked_again",
    "Bedrock.Origin.Props.c116_unreadable",
    "Bedrock.Origin.Props.c116_ends",
    "Bedrock.Origin.Props.c116_dropped",
    "Bedrock.Origin.Props.c116_answered"
   ],
   "note": "Proved for requests without the headers httpsRequests and serializedData, with messages and values that the format can carry (C22, C67), and where no node drops the command. Not true otherwise: a client can forge results (c116_forged), end the server (c116_ends), and is told 202 for a command that is dropped (c116_dropped). The plugins' own data is assumed to survive as the text it is."
  },
  {
   "property": "C117",
   "status": "partial",
   "theorems": [
    "Bedrock.Locks.Props.c117_no_deadlock",
    "Bedrock.Locks.Props.c117_completes",
    "Bedrock.Locks.Props.c117_blocked",
    "Bedrock.Locks.Props.c117_unblocked",
    "Bedrock.Locks.Props.c117_checkpoint_goes_on",
    "Bedrock.Locks.Props.c117_shutdown_waits"
   ],
   "note": "Proved for any number of threads, jobs and schedule: no deadlock, every job can be completed, nothing in the database changes from the answer to BlockWrites until UnblockWrites. Missing because false in the code: checkpoints go on and change the files (c117_checkpoint_goes_on); a node that changes state meanwhile cannot be stopped (c117_shutdown_waits)."
  },
  {
   "property": "C118",
   "status": "partial",
   "theorems": [
    "Bedrock.PeerWait.Props.c118_refines",
    "Bedrock.PeerWait.Props.c118_ends_in_time_partial",
    "Bedrock.PeerWait.Props.c118_client_gone",
    "Bedrock.PeerWait.Props.c118_not_early",
    "Bedrock.PeerWait.Props.c118_silent_node",
    "Bedrock.PeerWait.Props.c118_drip",
    "Bedrock.PeerWait.Props.c118_interrupted",
    "Bedrock.PeerWait.Props.c118_bad_answer",
    "Bedrock.PeerWait.Props.c118_named",
    "Bedrock.PeerWait.Props.c118_all",
    "Bedrock.PeerWait.Props.c118_all_ends"
   ],
   "note": "Full statement fails: a node that trickles bytes and a poll that keeps being interrupted evade the deadline (c118_drip, c118_interrupted). Proved: the clock never gets past one poll after the deadline or the last thing heard; within one poll of the client leaving, unconditionally; failure only for a reason; by-name calls always complete; a broadcast's results are a permutation of the nodes' answers under every interleaving."
  },
  {
   "property": "C119",
   "status": "partial",
   "theorems": [
    "Bedrock.Status.Props.c119_state_names",
    "Bedrock.Status.Props.c119_other_names",
    "Bedrock.Status.Props.c119_follower",
    "Bedrock.Status.Props.c119_handling",
    "Bedrock.Status.Props.c119_steady",
    "Bedrock.Status.Props.c119_changing",
    "Bedrock.Status.Props.c119_which",
    "Bedrock.Status.Props.c119_no_node",
    "Bedrock.Status.Props.c119_status_partial",
    "Bedrock.Status.Props.c119_unreadable",
    "Bedrock.Status.Props.c119_mixed"
   ],
   "note": "Full statement fails: the state is read several times for one answer (c119_changing, c119_mixed) and a queued method line like [[1] breaks the JSON (c119_unreadable). Proved: 200 only if a look saw a handling state and no backup, detach or mismatch; exact answers for a steady state; the Status answer reads back completely for texts JSON keeps."
  },
  {
   "property": "C120",
   "status": "partial",
   "theorems": [
    "Bedrock.Accept.Props.c120_counter",
    "Bedrock.Accept.Props.c120_shutdown",
    "Bedrock.Accept.Props.c120_limit",
    "Bedrock.Accept.Props.c120_in_order",
    "Bedrock.Accept.Props.c120_control",
    "Bedrock.Accept.Props.c120_call",
    "Bedrock.Accept.Props.c120_zero",
    "Bedrock.Accept.Props.c120_no_thread",
    "Bedrock.Accept.Props.c120_starved",
    "Bedrock.Accept.Props.c120_fifty_partial",
    "Bedrock.Accept.Props.c120_fifty_missed"
   ],
   "note": "Order, limit, counter, control port, exact result of a call, shutdown test; violated: clients of the public port can starve behind the private port (c120_starved), the unblocking at 50 threads can be missed (c120_fifty_missed)."
  },
  {
   "property": "C121",
   "status": "partial",
   "theorems": [
    "Bedrock.JobText.Props.c121_accepted",
    "Bedrock.JobText.Props.c121_refused",
    "Bedrock.JobText.Props.c121_stored",
    "Bedrock.JobText.Props.c121_mocked",
    "Bedrock.JobText.Props.c121_many",
    "Bedrock.JobText.Props.c121_name_length",
    "Bedrock.JobText.Props.c121_one",
    "Bedrock.JobText.Props.c121_one_refused",
    "Bedrock.JobText.Props.c121_many_refused",
    "Bedrock.JobText.Props.c121_many_code",
    "Bedrock.JobText.Props.c121_says_partial",
    "Bedrock.JobText.Props.c121_get",
    "Bedrock.JobText.Props.c121_get_many",
    "Bedrock.JobText.Props.c121_query",
    "Bedrock.JobText.Props.c121_lost",
    "Bedrock.JobText.Props.c121_lost_many",
    "Bedrock.JobText.Props.c121_back",
    "Bedrock.JobText.Props.c121_only_get",
    "Bedrock.JobText.Props.c121_cancels",
    "Bedrock.JobText.Props.c121_names",
    "Bedrock.JobText.Props.c121_pattern",
    "Bedrock.JobText.Props.c121_comma",
    "Bedrock.JobText.Props.c121_unclosed",
    "Bedrock.JobText.Props.c121_poisoned",
    "Bedrock.JobText.Props.c121_unmocked",
    "Bedrock.JobText.Props.c121_swallowed",
    "Bedrock.JobText.Props.c121_blank",
    "Bedrock.JobText.Props.c121_nameless",
    "Bedrock.JobText.Props.c121_line",
    "Bedrock.JobText.Props.c121_name_case",
    "Bedrock.JobText.Props.c121_name_size",
    "Bedrock.JobText.Props.c121_with_mocked"
   ],
   "note": "Proved for data that is JSON and for texts that survive being written as JSON: acceptance, storage, the answers of GetJob(s) and QueryJob, the names, and that exactly the jobs of a lost answer are put back. Missing: the code accepts data that is not JSON (c121_unclosed, c121_poisoned, c121_swallowed), jobs without a name (c121_nameless), names with commas that cannot be fetched (c121_comma), changes names like TRUE (c121_name_case), and does not put jobs back for a request line with more than the verb (c121_line)."
  },
  {
   "property": "C122",
   "status": "partial",
   "theorems": [
    "Bedrock.Gzip.Props.c122_carried",
    "Bedrock.Gzip.Props.c122_whole_partial",
    "Bedrock.Gzip.Props.c122_plain",
    "Bedrock.Gzip.Props.c122_truncated",
    "Bedrock.Gzip.Props.c122_short_texts",
    "Bedrock.Gzip.Props.c122_stored",
    "Bedrock.Gzip.Props.c122_wrapped",
    "Bedrock.Gzip.Props.c122_unzip",
    "Bedrock.Gzip.Props.c122_inverse_partial",
    "Bedrock.Gzip.Props.c122_unzip_bad",
    "Bedrock.Gzip.Props.c122_unzip_cut"
   ],
   "note": "Proved when the complete stream fits into the buffer SGZip reserves, and when compression fails outright. The code violates the rest: short content that cannot be compressed is sent cut (c122_truncated, c122_stored), content of 4 GiB or more is cut (c122_wrapped), and a cut stream is accepted by SGUnzip (c122_unzip_cut). zlib is a parameter with the laws of the format as hypotheses; a library that keeps them is given."
  },
  {
   "property": "C123",
   "status": "partial",
   "theorems": [
    "Bedrock.AfterCommit.Props.c123_hooks",
    "Bedrock.AfterCommit.Props.c123_running",
    "Bedrock.AfterCommit.Props.c123_once",
    "Bedrock.AfterCommit.Props.c123_unlocked",
    "Bedrock.AfterCommit.Props.c123_gathered",
    "Bedrock.AfterCommit.Props.c123_one",
    "Bedrock.AfterCommit.Props.c123_left_to",
    "Bedrock.AfterCommit.Props.c123_alone",
    "Bedrock.AfterCommit.Props.c123_forgotten",
    "Bedrock.AfterCommit.Props.c123_shown"
   ],
   "note": "Proved for every schedule: the callbacks of each commit run exactly once and in order, without the commit lock, whatever they throw; failed commits run none; at most one thread is at a checkpoint; a thread that skips leaves it to one that is at it; the number shown in STATUS is never too small; a lone commit does checkpoint. Not true of the code: frames committed during another thread's checkpoint are counted as done (c123_forgotten), until the next commit."
  },
  {
   "property": "C124",
   "status": "partial",
   "theorems": [
    "Bedrock.Stamp.Props.c124_date",
    "Bedrock.Stamp.Props.c124_order",
    "Bedrock.Stamp.Props.c124_order_ms",
    "Bedrock.Stamp.Props.c124_due",
    "Bedrock.Stamp.Props.c124_length",
    "Bedrock.Stamp.Props.c124_no_quote",
    "Bedrock.Stamp.Props.c124_round_trip_partial",
    "Bedrock.Stamp.Props.c124_round_trip_utc",
    "Bedrock.Stamp.Props.c124_any_text",
    "Bedrock.Stamp.Props.c124_february",
    "Bedrock.Stamp.Props.c124_year_10000",
    "Bedrock.Stamp.Props.c124_this_morning",
    "Bedrock.Stamp.Props.c124_not_midnight",
    "Bedrock.Stamp.Props.c124_timeval"
   ],
   "note": "Proved for every time up to the year 9999: the fields are a valid date whose day number is that of the time; texts are in the order of the times (whole seconds, milliseconds, mixed: c124_due); fixed length; no byte to quote; read back where local time is UTC. Not true of the code: the order ends with the year 9999, reading depends on the local time zone and accepts any text, and STimeThisMorning is not midnight."
  },
  {
   "property": "C125",
   "status": "partial",
   "theorems": [
    "Bedrock.Descriptors.Props.c125_failed",
    "Bedrock.Descriptors.Props.c125_opened",
    "Bedrock.Descriptors.Props.c125_ready",
    "Bedrock.Descriptors.Props.c125_succeeds",
    "Bedrock.Descriptors.Props.c125_accounted_partial",
    "Bedrock.Descriptors.Props.c125_given_back",
    "Bedrock.Descriptors.Props.c125_closed_once",
    "Bedrock.Descriptors.Props.c125_lost_https",
    "Bedrock.Descriptors.Props.c125_lost_setup",
    "Bedrock.Descriptors.Props.c125_lost_accept",
    "Bedrock.Descriptors.Props.c125_opened_first"
   ],
   "note": "Proved for every history and every answer: S_socket leaves nothing behind when it fails and gives a ready descriptor when it succeeds; the open descriptors are exactly those from before, one per object, and one per operation in a stated list of four. Not true of the code: those four operations lose a descriptor (c125_lost_https, c125_lost_setup, c125_lost_accept)."
  },
  {
   "property": "C126",
   "status": "partial",
   "theorems": [
    "Bedrock.Poll.Props.c126_asked_for",
    "Bedrock.Poll.Props.c126_reported",
    "Bedrock.Poll.Props.c126_failed",
    "Bedrock.Poll.Props.c126_told",
    "Bedrock.Poll.Props.c126_not_woken",
    "Bedrock.Poll.Props.c126_time",
    "Bedrock.Poll.Props.c126_second",
    "Bedrock.Poll.Props.c126_in_time",
    "Bedrock.Poll.Props.c126_retry",
    "Bedrock.Poll.Props.c126_clock_back",
    "Bedrock.Poll.Props.c126_https",
    "Bedrock.Poll.Props.c126_nothing_to_poll"
   ],
   "note": "Proved while the clock does not go back and something is polled. Set back, the loops sleep longer, even for ever (c126_clock_back); a command without any socket polls an empty set, which is undefined in C++ (c126_nothing_to_poll). What poll(2) does is taken from POSIX."
  },
  {
   "property": "C127",
   "status": "partial",
   "theorems": [
    "Bedrock.Outgoing.Props.c127_encrypted",
    "Bedrock.Outgoing.Props.c127_request",
    "Bedrock.Outgoing.Props.c127_refused",
    "Bedrock.Outgoing.Props.c127_failed",
    "Bedrock.Outgoing.Props.c127_no_abort",
    "Bedrock.Outgoing.Props.c127_aborts",
    "Bedrock.Outgoing.Props.c127_plain_443"
   ],
   "note": "Secrecy, the request sent, the refusal and the answer 503 are proved; URLs with a bad port or without a host, and a malformed HTTPS_PROXY, end the process instead (c127_aborts); http URLs without port go to port 443 (c127_plain_443)."
  },
  {
   "property": "C128",
   "status": "partial",
   "theorems": [
    "Bedrock.Lru.Props.c128_memory",
    "Bedrock.Lru.Props.c128_oldest",
    "Bedrock.Lru.Props.c128_size",
    "Bedrock.Lru.Props.c128_size_misread"
   ],
   "note": "Proved for the list and the map with their pointers and iterators, for all sequences of calls, and for all sizes that fit. Partial because sizes written otherwise are misread instead of refused: K, M, G alone count as bytes, fractions are dropped, negative numbers abort, and a product beyond 2^63 is undefined (c128_size_misread)."
  },
  {
   "property": "C129",
   "status": "partial",
   "theorems": [
    "Bedrock.Dying.Props.c129_reports_partial",
    "Bedrock.Dying.Props.c129_only_running",
    "Bedrock.Dying.Props.c129_worker_arms",
    "Bedrock.Dying.Props.c129_command_thread_arms",
    "Bedrock.Dying.Props.c129_waiting",
    "Bedrock.Dying.Props.c129_sync_thread",
    "Bedrock.Dying.Props.c129_refused_elsewhere_partial",
    "Bedrock.Dying.Props.c129_building_unreported",
    "Bedrock.Dying.Props.c129_stale",
    "Bedrock.Dying.Props.c129_moved_away",
    "Bedrock.Dying.Props.c129_no_messenger",
    "Bedrock.Dying.Props.c129_node_destroyed",
    "Bedrock.Dying.Props.c129_control_character",
    "Bedrock.Dying.Props.c129_cut_partial",
    "Bedrock.Dying.Props.c129_no_reconnect",
    "Bedrock.Dying.Props.c129_kill_ends",
    "Bedrock.Dying.Props.c129_login_survives"
   ],
   "note": "Proved: exact reports for the running command, never another, refusal elsewhere with C69, waiting and sync threads, the cut when the sync thread is between turns. Missing: requests that kill while being read or built, stale references after runCommand returns or gives the command away, no messenger, destroyed node, logins under way - each refuted by a theorem."
  },
  {
   "property": "C130",
   "status": "partial",
   "theorems": [
    "Bedrock.OnPrepare.Props.c130_as_if_written_before",
    "Bedrock.OnPrepare.Props.c130_chain",
    "Bedrock.OnPrepare.Props.c130_called_iff",
    "Bedrock.OnPrepare.Props.c130_nobody_else",
    "Bedrock.OnPrepare.Props.c130_not_without_lock",
    "Bedrock.OnPrepare.Props.c130_one_transaction",
    "Bedrock.OnPrepare.Props.c130_all_or_nothing",
    "Bedrock.OnPrepare.Props.c130_number",
    "Bedrock.OnPrepare.Props.c130_numbers_differ",
    "Bedrock.OnPrepare.Props.c130_exception_kills_partial",
    "Bedrock.OnPrepare.Props.c130_command_exception",
    "Bedrock.OnPrepare.Props.c130_null_handler",
    "Bedrock.OnPrepare.Props.c130_command_partial",
    "Bedrock.OnPrepare.Props.c130_empty",
    "Bedrock.OnPrepare.Props.c130_number_not_table",
    "Bedrock.OnPrepare.Props.c130_mocked_writes"
   ],
   "note": "Proved: refinement to the database layer, when and for whom the handler is called, one transaction, all or nothing, the numbers. Disagreements proved as theorems: a mocked request's handler does write, an exception in it ends the server, the number is not a table number, a null handler is called."
  },
  {
   "property": "C131",
   "status": "partial",
   "theorems": [
    "Bedrock.LocalWrite.Props.c131_data",
    "Bedrock.LocalWrite.Props.c131_replication_untouched",
    "Bedrock.LocalWrite.Props.c131_no_journal",
    "Bedrock.LocalWrite.Props.c131_moment",
    "Bedrock.LocalWrite.Props.c131_refused",
    "Bedrock.LocalWrite.Props.c131_handle_usable",
    "Bedrock.LocalWrite.Props.c131_succeeds",
    "Bedrock.LocalWrite.Props.c131_nodes_agree",
    "Bedrock.LocalWrite.Props.c131_hash_agree",
    "Bedrock.LocalWrite.Props.c131_commit_inside_partial",
    "Bedrock.LocalWrite.Props.c131_nodes_diverge_partial",
    "Bedrock.LocalWrite.Props.c131_conflicts_partial"
   ],
   "note": "c131_data: for every interleaving and crash the data of a node is the replay of its committed transactions and the local writes that returned true, in order; c131_moment: it changes at no other moment; c131_replication_untouched, c131_no_journal: the database layer below runs as without local writes; c131_refused, c131_handle_usable, c131_succeeds; c131_nodes_agree, c131_hash_agree: nodes with the same history or hash agree on what local writes leave alone. Partial: a text with COMMIT in it (c131_commit_inside_partial); data that replicated statements share with local writes diverges (c131_nodes_diverge_partial); a local write can make a replicated commit conflict (c131_conflicts_partial)."
  },
  {
   "property": "C132",
   "status": "partial",
   "theorems": [
    "Bedrock.Report.Props.c132_total",
    "Bedrock.Report.Props.c132_tables",
    "Bedrock.Report.Props.c132_no_journals",
    "Bedrock.Report.Props.c132_ordered",
    "Bedrock.Report.Props.c132_at_most_total",
    "Bedrock.Report.Props.c132_failures_do_not_count",
    "Bedrock.Report.Props.c132_last_attempt",
    "Bedrock.Report.Props.c132_order_irrelevant",
    "Bedrock.Report.Props.c132_readable",
    "Bedrock.Report.Props.c132_journal_like_partial",
    "Bedrock.Report.Props.c132_sync_not_counted_partial",
    "Bedrock.Report.Props.c132_denied_counts_partial"
   ],
   "note": "Exact counts from the history for all interleavings, order independence, last attempt only, readable text. Partial: tables named like journals are hidden, sync-thread commits are not counted, refused accesses are."
  },
  {
   "property": "C133",
   "status": "partial",
   "theorems": [
    "Bedrock.PeerPool.Props.c133_right_answer",
    "Bedrock.PeerPool.Props.c133_one_answer",
    "Bedrock.PeerPool.Props.c133_own_connection",
    "Bedrock.PeerPool.Props.c133_right_node",
    "Bedrock.PeerPool.Props.c133_kept_clean",
    "Bedrock.PeerPool.Props.c133_never_broken",
    "Bedrock.PeerPool.Props.c133_answer_taken",
    "Bedrock.PeerPool.Props.c133_reused",
    "Bedrock.PeerPool.Props.c133_stray_message_partial",
    "Bedrock.PeerPool.Props.c133_other_addresses_partial"
   ],
   "note": "Right answer, right node, one user per connection and clean kept connections for all interleavings with well-behaved nodes, on the real parser. Partial: a stray message is taken for the next answer; addresses with more than host and port never have connections kept."
  },
  {
   "property": "C134",
   "status": "partial",
   "theorems": [
    "Bedrock.MethodLine.Props.c134_request",
    "Bedrock.MethodLine.Props.c134_no_uri",
    "Bedrock.MethodLine.Props.c134_request_undefined_partial",
    "Bedrock.MethodLine.Props.c134_response",
    "Bedrock.MethodLine.Props.c134_written",
    "Bedrock.MethodLine.Props.c134_response_undefined_partial"
   ],
   "note": "Proved for every line with the needed separators. Partial: lines without a blank behind the first word (requests) or the second (status lines) make the functions read outside of the text; the exact sets of such lines are proved."
  },
  {
   "property": "C135",
   "status": "partial",
   "theorems": [
    "Bedrock.Stopwatch.Props.c135_not_twice",
    "Bedrock.Stopwatch.Props.c135_rate",
    "Bedrock.Stopwatch.Props.c135_due",
    "Bedrock.Stopwatch.Props.c135_in_time",
    "Bedrock.Stopwatch.Props.c135_first",
    "Bedrock.Stopwatch.Props.c135_plain",
    "Bedrock.Stopwatch.Props.c135_told",
    "Bedrock.Stopwatch.Props.c135_timers",
    "Bedrock.Stopwatch.Props.c135_clock_back_partial",
    "Bedrock.Stopwatch.Props.c135_shared_partial",
    "Bedrock.Stopwatch.Props.c135_elapsed"
   ],
   "note": "Proved for clocks that are not set back and timers registered by one plugin. Partial: a clock set back makes timers fire at once, and of two plugins that share a timer only the first is told; both are proved."
  },
  {
   "property": "C136",
   "status": "partial",
   "theorems": [
    "Bedrock.ValueEq.Props.c136_text",
    "Bedrock.ValueEq.Props.c136_symmetric",
    "Bedrock.ValueEq.Props.c136_reflexive_partial",
    "Bedrock.ValueEq.Props.c136_same",
    "Bedrock.ValueEq.Props.c136_by_text",
    "Bedrock.ValueEq.Props.c136_real",
    "Bedrock.ValueEq.Props.c136_whole",
    "Bedrock.ValueEq.Props.c136_large_partial",
    "Bedrock.ValueEq.Props.c136_not_transitive_partial",
    "Bedrock.ValueEq.Props.c136_infinity_partial",
    "Bedrock.ValueEq.Props.c136_empty",
    "Bedrock.ValueEq.Props.c136_concat",
    "Bedrock.ValueEq.Props.c136_kinds"
   ],
   "note": "Symmetry, sameness of all kinds but real numbers, comparison with texts, emptiness and the tolerance are proved for all values. Reflexivity fails for infinities, and transitivity for real numbers; both are refuted by theorems."
  },
  {
   "property": "C137",
   "status": "partial",
   "theorems": [
    "Bedrock.PerfTimer.Props.c137_conserved",
    "Bedrock.PerfTimer.Props.c137_line",
    "Bedrock.PerfTimer.Props.c137_periods",
    "Bedrock.PerfTimer.Props.c137_when",
    "Bedrock.PerfTimer.Props.c137_stop_again_partial",
    "Bedrock.PerfTimer.Props.c137_auto",
    "Bedrock.PerfTimer.Props.c137_auto_total",
    "Bedrock.PerfTimer.Props.c137_from_start"
   ],
   "note": "Conservation, the bound of a line, the periods and AutoTimer are proved for all sequences of paired measurements. A stop without a start is counted twice, which a theorem shows; the server never does that."
  },
  {
   "property": "C138",
   "status": "partial",
   "theorems": [
    "Bedrock.RandStr.Props.c138_length",
    "Bedrock.RandStr.Props.c138_letters",
    "Bedrock.RandStr.Props.c138_every",
    "Bedrock.RandStr.Props.c138_z_partial",
    "Bedrock.RandStr.Props.c138_alphanumeric"
   ],
   "note": "Length, termination and reachability of every text without z are proved; z never occurs, which a theorem shows."
  },
  {
   "property": "C139",
   "status": "partial",
   "theorems": [
    "Bedrock.GetRequest.Props.c139_accepted",
    "Bedrock.GetRequest.Props.c139_one",
    "Bedrock.GetRequest.Props.c139_many",
    "Bedrock.GetRequest.Props.c139_asked",
    "Bedrock.GetRequest.Props.c139_none",
    "Bedrock.GetRequest.Props.c139_best",
    "Bedrock.GetRequest.Props.c139_refused",
    "Bedrock.GetRequest.Props.c139_negative_partial",
    "Bedrock.GetRequest.Props.c139_word_partial"
   ],
   "note": "Acceptance, refusals, the bounds down to -2147483648 and what is handed out are proved. Smaller numbers and priorities that are not numbers are counterexamples, shown by theorems."
  },
  {
   "property": "C140",
   "status": "proved",
   "theorems": [
    "Bedrock.PeerInfo.Props.c140_known",
    "Bedrock.PeerInfo.Props.c140_parameter",
    "Bedrock.PeerInfo.Props.c140_nothing_else",
    "Bedrock.PeerInfo.Props.c140_state",
    "Bedrock.PeerInfo.Props.c140_response",
    "Bedrock.PeerInfo.Props.c140_all",
    "Bedrock.PeerInfo.Props.c140_list",
    "Bedrock.PeerInfo.Props.c140_address"
   ],
   "note": "The members of a peer are read as one snapshot."
  },
  {
   "property": "C141",
   "status": "partial",
   "theorems": [
    "Bedrock.VMTouch.Props.c141_pages",
    "Bedrock.VMTouch.Props.c141_touched_partial",
    "Bedrock.VMTouch.Props.c141_last_partial",
    "Bedrock.VMTouch.Props.c141_inside",
    "Bedrock.VMTouch.Props.c141_counted",
    "Bedrock.VMTouch.Props.c141_done",
    "Bedrock.VMTouch.Props.c141_loaded_partial",
    "Bedrock.VMTouch.Props.c141_failed",
    "Bedrock.VMTouch.Props.c141_closed",
    "Bedrock.VMTouch.Props.c141_no_threads_partial"
   ],
   "note": "Proved but for the last page of the file, which the code never reads, and for a machine that does not tell the number of its processors, where the code divides by zero."
  },
  {
   "property": "C142",
   "status": "partial",
   "theorems": [
    "Bedrock.Dest.Props.c142_version",
    "Bedrock.Dest.Props.c142_no_crash",
    "Bedrock.Dest.Props.c142_fit",
    "Bedrock.Dest.Props.c142_found",
    "Bedrock.Dest.Props.c142_none",
    "Bedrock.Dest.Props.c142_leader",
    "Bedrock.Dest.Props.c142_round",
    "Bedrock.Dest.Props.c142_round_address",
    "Bedrock.Dest.Props.c142_same_name_partial"
   ],
   "note": "Proved for peers with distinct names. With two peers of one name the code may send to one that does not fit (c142_same_name_partial)."
  },
  {
   "property": "C143",
   "status": "partial",
   "theorems": [
    "Bedrock.QueueWait.Props.c143_once",
    "Bedrock.QueueWait.Props.c143_served",
    "Bedrock.QueueWait.Props.c143_enough_awake",
    "Bedrock.QueueWait.Props.c143_quiet",
    "Bedrock.QueueWait.Props.c143_timeout",
    "Bedrock.QueueWait.Props.c143_later_partial",
    "Bedrock.QueueWait.Props.c143_no_worker_lost"
   ],
   "note": "Proved for commands that may be run at once when they are pushed; what a worker gets, and when it leaves, is proved for all. A command for later may wait although a worker sleeps (c143_later_partial)."
  },
  {
   "property": "C144",
   "status": "partial",
   "theorems": [
    "Bedrock.DictLoad.Props.c144_key",
    "Bedrock.DictLoad.Props.c144_all_good",
    "Bedrock.DictLoad.Props.c144_loaded",
    "Bedrock.DictLoad.Props.c144_start",
    "Bedrock.DictLoad.Props.c144_started",
    "Bedrock.DictLoad.Props.c144_restart",
    "Bedrock.DictLoad.Props.c144_empty_partial",
    "Bedrock.DictLoad.Props.c144_unreadable_partial"
   ],
   "note": "The last sentence is false in the code: an empty or bad row ends the process at every start (c144_start, c144_empty_partial), and a table that cannot be read is only logged (c144_unreadable_partial). The rest is proved for dictionaries whose own ID is that of their row (see C60)."
  },
  {
   "property": "C145",
   "status": "partial",
   "theorems": [
    "Bedrock.Fields.Props.c145_map",
    "Bedrock.Fields.Props.c145_names_once",
    "Bedrock.Fields.Props.c145_last",
    "Bedrock.Fields.Props.c145_erased",
    "Bedrock.Fields.Props.c145_merge",
    "Bedrock.Fields.Props.c145_read",
    "Bedrock.Fields.Props.c145_read_sets_partial",
    "Bedrock.Fields.Props.c145_numbers",
    "Bedrock.Fields.Props.c145_int",
    "Bedrock.Fields.Props.c145_below_partial",
    "Bedrock.Fields.Props.c145_assigned_partial",
    "Bedrock.Fields.Props.c145_spelling",
    "Bedrock.Fields.Props.c145_true"
   ],
   "note": "Proved: refinement of every sequence of operations to a map (c145_map), names once, last write, erasure, merge, reads, numbers and bools, spelling. Does not hold: reading creates the field (c145_read_sets_partial), numbers below the range of int wrap (c145_below_partial), assigning a number stores a character (c145_assigned_partial)."
  },
  {
   "property": "C146",
   "status": "partial",
   "theorems": [
    "Bedrock.Drain.Props.c146_answered",
    "Bedrock.Drain.Props.c146_no_new_thread",
    "Bedrock.Drain.Props.c146_stops",
    "Bedrock.Drain.Props.c146_can_stop",
    "Bedrock.Drain.Props.c146_told",
    "Bedrock.Drain.Props.c146_unasked_partial",
    "Bedrock.Drain.Props.c146_handle_partial"
   ],
   "note": "Proved: c146_answered for every interleaving in which ioctl does not fail, c146_no_new_thread, c146_stops, c146_can_stop (from every reachable state), c146_told. Does not hold: if ioctl fails an answer can be lost (c146_unasked_partial); the node does not wait for database handles of the answering threads (c146_handle_partial)."
  },
  {
   "property": "C147",
   "status": "partial",
   "theorems": [
    "Bedrock.MatchAll.Props.c147_all",
    "Bedrock.MatchAll.Props.c147_groups",
    "Bedrock.MatchAll.Props.c147_empty_partial",
    "Bedrock.MatchAll.Props.c147_anchor_partial",
    "Bedrock.MatchAll.Props.c147_group_partial"
   ],
   "note": "Proved: c147_all (termination, order, completeness) for every language of non-empty words; c147_groups. Does not hold: an empty match makes the search endless (c147_empty_partial), anchors match after each match (c147_anchor_partial), groups without a match shift the others (c147_group_partial)."
  },
  {
   "property": "C148",
   "status": "partial",
   "theorems": [
    "Bedrock.QueryLog.Props.c148_log",
    "Bedrock.QueryLog.Props.c148_other",
    "Bedrock.QueryLog.Props.c148_closed",
    "Bedrock.QueryLog.Props.c148_name_partial",
    "Bedrock.QueryLog.Props.c148_nul_partial"
   ],
   "note": "Proved for database names without a quote and queries without a NUL of at most 200000 bytes. A name with a quote is not escaped and a query is cut at a NUL: c148_name_partial, c148_nul_partial."
  },
  {
   "property": "C149",
   "status": "partial",
   "theorems": [
    "Bedrock.TxTimes.Props.c149_commit",
    "Bedrock.TxTimes.Props.c149_once",
    "Bedrock.TxTimes.Props.c149_rollback",
    "Bedrock.TxTimes.Props.c149_each",
    "Bedrock.TxTimes.Props.c149_rollback_partial",
    "Bedrock.TxTimes.Props.c149_hctree_partial",
    "Bedrock.TxTimes.Props.c149_constraint_partial",
    "Bedrock.TxTimes.Props.c149_stale_partial"
   ],
   "note": "Proved for commits without HC-Tree and for rollbacks. The whole of a rollback can be less than its parts, statistics on HC-Tree count as reads, failed writes are not counted, and a rollback without a transaction repeats old times: the theorems with suffix _partial."
  }
 ]
}