{
 "claims": [
  {
   "property": "C01",
   "status": "proved",
   "theorems": [
    "Coniks.Props.C01_toBits_msb_first",
    "Coniks.Props.C01_toBits_position",
    "Coniks.Props.C01_toBytes_toBits",
    "Coniks.Props.C01_toBits_toBytes",
    "Coniks.Props.C01_toBytes_length",
    "Coniks.Props.C01_getNthBit"
   ],
   "note": ""
  },
  {
   "property": "C02",
   "status": "proved",
   "theorems": [
    "Coniks.Props.C02_uint32_digits",
    "Coniks.Props.C02_ulong_digits",
    "Coniks.Props.C02_long_digits",
    "Coniks.Props.C02_injective",
    "Coniks.Props.C02_ulong_onto"
   ],
   "note": ""
  },
  {
   "property": "C03",
   "status": "proved",
   "theorems": [
    "Coniks.Props.C03_bytesPrefix_exact",
    "Coniks.Props.C03_incrementKey_least",
    "Coniks.Props.C03_incrementKey_nil"
   ],
   "note": ""
  },
  {
   "property": "C04",
   "status": "proved",
   "theorems": [
    "Coniks.Props.C04_commit_opens",
    "Coniks.Props.C04_commit_total",
    "Coniks.Props.C04_commit_binds",
    "Coniks.Props.C04_commit_exact",
    "Coniks.Props.C04_commit_exact_same_length",
    "Coniks.Props.C04_key_value_split_counterexample"
   ],
   "note": "opening and totality; the exact set of pairs a commitment opens to, and binding of the value, under an explicit no-collision hypothesis for the two inputs; that the key alone is not bound is shown by C04_key_value_split_counterexample"
  },
  {
   "property": "C05",
   "status": "proved",
   "theorems": [
    "Coniks.Props.C05_numbers_always",
    "Coniks.Props.C05_same_bytes_iff",
    "Coniks.Props.C05_serialize_injective_regular",
    "Coniks.Props.C05_boundary_counterexample",
    "Coniks.Props.C05_version_counterexample"
   ],
   "note": "C05_same_bytes_iff is the exact characterisation; the claim without a condition on lengths is refuted by C05_boundary_counterexample and C05_version_counterexample"
  },
  {
   "property": "C06",
   "status": "proved",
   "theorems": [
    "Coniks.Props.C06_tb_injective",
    "Coniks.Props.C06_unchecked_counterexample"
   ],
   "note": "lengths enforced by the signature and VRF checks"
  },
  {
   "property": "C07",
   "status": "proved",
   "theorems": [
    "Coniks.Props.C07_prove_compute",
    "Coniks.Props.C07_complete",
    "Coniks.Props.C07_neutral_rejected",
    "Coniks.Props.C07_go_prove_compute",
    "Coniks.Props.C07_go_complete",
    "Coniks.Props.C07_go_generateKey",
    "Coniks.Props.C07_proof_length"
   ],
   "note": "For the Go code itself (goOps): only SHAKE256 is abstract. C07_go_complete gives the exact verdict: accepted unless the hash of the message is one of twelve values. The other C07 theorems are the same over any operations satisfying EdLaws."
  },
  {
   "property": "C08",
   "status": "proved",
   "theorems": [
    "Coniks.Props.C08_go_total",
    "Coniks.Props.C08_accepts_iff",
    "Coniks.Props.C08_special_soundness",
    "Coniks.Props.C08_value_determined",
    "Coniks.Props.C08_response_not_unique",
    "Coniks.Props.C08_go_accepts_iff",
    "Coniks.Props.C08_go_special_soundness"
   ],
   "note": "For the Go code itself (goOps): exact acceptance condition in terms of curve points, special soundness, value determined by the point; proofs are not unique (C08_response_not_unique)."
  },
  {
   "property": "C09",
   "status": "proved",
   "theorems": [
    "Coniks.Props.C09_set_never_panics",
    "Coniks.Props.C09_set_succeeds",
    "Coniks.Props.C09_empty_index_panics",
    "Coniks.Props.C09_mixed_lengths_panic"
   ],
   "note": "for every non-zero common length; the empty index and mixed lengths are shown to panic"
  },
  {
   "property": "C10",
   "status": "proved",
   "theorems": [
    "Coniks.Props.C10_get_present",
    "Coniks.Props.C10_get_absent_no_value",
    "Coniks.Props.C10_get_absent_spread",
    "Coniks.Props.C10_deep_prefix_counterexample",
    "Coniks.Props.C10_get_absent_exact"
   ],
   "note": "C10_get_present and C10_get_absent_exact together cover every history and index; that the exception is real is shown by C10_deep_prefix_counterexample; C10_get_absent_spread is the plain claim under spread indices"
  },
  {
   "property": "C11",
   "status": "proved",
   "theorems": [
    "Coniks.Props.C11_hash_canonical",
    "Coniks.Props.C11_order_independent"
   ],
   "note": ""
  },
  {
   "property": "C12",
   "status": "proved",
   "theorems": [
    "Coniks.Props.C12_present_verifies",
    "Coniks.Props.C12_absent_verifies_spread",
    "Coniks.Props.C12_deep_prefix_counterexample",
    "Coniks.Props.C12_absent_exact"
   ],
   "note": "C12_present_verifies and C12_absent_exact together cover every history and index; that the exception is real is shown by C12_deep_prefix_counterexample"
  },
  {
   "property": "C13",
   "status": "partial",
   "theorems": [
    "Coniks.Props.C13_accepts_iff",
    "Coniks.Props.C13_sound_partial",
    "Coniks.Props.C13_empty_branch_counterexample",
    "Coniks.Props.C13_honest_wellshaped"
   ],
   "note": "proved under explicit no-collision hypotheses for well-shaped, non-confusable paths; the unrestricted claim is shown false (empty-branch confusion); C13_accepts_iff is the exact set of paths accepted under the hash of an honest tree, whatever their shape"
  },
  {
   "property": "C14",
   "status": "partial",
   "theorems": [
    "Coniks.Props.C14_accepts_iff",
    "Coniks.Props.C14_no_contradiction_partial",
    "Coniks.Props.C14_empty_flag_counterexample",
    "Coniks.Props.C14_salt_length_counterexample",
    "Coniks.Props.C14_inclusion_and_absence_counterexample"
   ],
   "note": "proved for well-shaped, non-confusable paths under an explicit no-collision hypothesis; three counterexamples show the restriction is needed; C14_accepts_iff says exactly which paths are accepted under a tree hash once one is, whatever their shape"
  },
  {
   "property": "C15",
   "status": "partial",
   "theorems": [
    "Coniks.Props.C15_verify_panics_iff",
    "Coniks.Props.C15_verify_total_partial",
    "Coniks.Props.C15_honest_complete",
    "Coniks.Props.C15_panic_counterexamples"
   ],
   "note": "totality proved for proofs with a leaf, a commitment and a level within the index; the unrestricted claim is false of the code: C15_verify_panics_iff gives the exact set of crashing proofs (Spec.CrashesVerifier)"
  },
  {
   "property": "C16",
   "status": "proved",
   "theorems": [
    "Coniks.Props.C16_absence_proof_redacted",
    "Coniks.Props.C16_absence_proof_private",
    "Coniks.Props.C16_no_value_no_salt"
   ],
   "note": "covers the fields of the returned absence proof"
  },
  {
   "property": "C17",
   "status": "proved",
   "theorems": [
    "Coniks.Props.C17_refines_values",
    "Coniks.Props.C17_isolation",
    "Coniks.Props.C17_clone_equal",
    "Coniks.Props.C17_clone_behaves",
    "Coniks.Props.C17_stale_clone"
   ],
   "note": "Pointer-level model (heap cells with parent and child pointers) of insertNode, hash, clone, Get; any number of trees and clones in one memory."
  },
  {
   "property": "C18",
   "status": "proved",
   "theorems": [
    "Coniks.Props.C18_signed_hash_chain",
    "Coniks.Props.C18_tree_hash"
   ],
   "note": "for fewer than 2^64 updates (uint64 epochs wrap)"
  },
  {
   "property": "C19",
   "status": "proved",
   "theorems": [
    "Coniks.Props.C19_cache_two",
    "Coniks.Props.C19_tiny_cache_counterexample",
    "Coniks.Props.C19_cache"
   ],
   "note": "C19_cache holds for every n; C19_tiny_cache_counterexample shows that the limit is exceeded for n below 2"
  },
  {
   "property": "C20",
   "status": "proved",
   "theorems": [
    "Coniks.Props.C20_history_immutable",
    "Coniks.Props.C20_how_long"
   ],
   "note": ""
  },
  {
   "property": "C21",
   "status": "proved",
   "theorems": [
    "Coniks.Props.C21_policies_delay",
    "Coniks.Props.C21_policies_shown"
   ],
   "note": ""
  },
  {
   "property": "C22",
   "status": "proved",
   "theorems": [
    "Coniks.Props.C22_reshuffle_preserves",
    "Coniks.Props.C22_reshuffle_content"
   ],
   "note": "under distinct VRF outputs for the stored names (explicit hypothesis) and available randomness"
  },
  {
   "property": "C23",
   "status": "proved",
   "theorems": [
    "Coniks.Props.C23_first_registration_wins",
    "Coniks.Props.C23_only_registered"
   ],
   "note": "under distinct VRF indices for the names used (explicit hypothesis); C23_only_registered: every key shown was registered by a Register that succeeded"
  },
  {
   "property": "C24",
   "status": "proved",
   "theorems": [
    "Coniks.Props.C24_promises_kept"
   ],
   "note": "under distinct VRF indices for the names used (explicit hypothesis)"
  },
  {
   "property": "C25",
   "status": "proved",
   "theorems": [
    "Coniks.Props.C25_responses_spread",
    "Coniks.Props.C25_deep_prefix_counterexample",
    "Coniks.Props.C25_exact"
   ],
   "note": "C25_exact needs no hypothesis on the VRF; C25_responses_spread is the plain refinement under indices that differ within 248 bits; C25_deep_prefix_counterexample shows that distinct indices are not enough for it"
  },
  {
   "property": "C26",
   "status": "proved",
   "theorems": [
    "Coniks.Props.C26_malformed",
    "Coniks.Props.C26_only_malformed",
    "Coniks.Props.C26_reads_pure"
   ],
   "note": ""
  },
  {
   "property": "C27",
   "status": "proved",
   "theorems": [
    "Coniks.Props.C27_failed_registration",
    "Coniks.Props.C27_no_trace"
   ],
   "note": ""
  },
  {
   "property": "C28",
   "status": "proved",
   "theorems": [
    "Coniks.Props.C28_lookup_in_epoch",
    "Coniks.Props.C28_exact"
   ],
   "note": "C28_exact needs no hypothesis on the VRF; C28_lookup_in_epoch is the reading in terms of names under distinct indices"
  },
  {
   "property": "C29",
   "status": "proved",
   "theorems": [
    "Coniks.Props.C29_monitor",
    "Coniks.Props.C29_exact"
   ],
   "note": "C29_exact needs no hypothesis on the VRF; C29_monitor is the reading in terms of names under distinct indices"
  },
  {
   "property": "C30",
   "status": "proved",
   "theorems": [
    "Coniks.Props.C30_history",
    "Coniks.Props.C30_evicted_counterexample"
   ],
   "note": "covers every range; \"never crashes\" is refuted by C30_evicted_counterexample, which together with C30_history and C31_directory_panics_iff gives the exact condition"
  },
  {
   "property": "C31",
   "status": "proved",
   "theorems": [
    "Coniks.Props.C31_no_request_crashes",
    "Coniks.Props.C31_no_bytes_crash",
    "Coniks.Props.C31_directory_panics_iff",
    "Coniks.Props.C31_history_runs"
   ],
   "note": "HandleRequests and the whole path from bytes to answer, for every reachable directory below 2^64 epochs. Requests carry non-nil payloads (UnmarshalRequest never yields a nil one, proved). GetSTRHistory, which can panic (C30), is not reachable through HandleRequests."
  },
  {
   "property": "C32",
   "status": "proved",
   "theorems": [
    "Coniks.Props.C32_one_call",
    "Coniks.Props.C32_forward_chain",
    "Coniks.Props.C32_epoch_monotone"
   ],
   "note": "For every sequence of responses, accepted or refused, from anyone: the STRs held form a chain of signed, hash-linked successors from the pinned one; epochs never decrease or skip (below 2^64)."
  },
  {
   "property": "C33",
   "status": "proved",
   "theorems": [
    "Coniks.Props.C33_go_session",
    "Coniks.Props.C33_session",
    "Coniks.Props.C33_two_epochs_behind_counterexample",
    "Coniks.Props.C33_exact"
   ],
   "note": "C33_exact: every verdict of every session, or the crash, as a function of the index-keyed directory, the epochs since the last accepted STR and the promises held; no hypothesis on the cryptography (below 2^64 epochs). C33_session: the readable usual case (spread indices, verifiable names, one answered call per epoch); C33_go_session: the same with the Go VRF. C33_two_epochs_behind_counterexample: a client two epochs behind is refused for ever."
  },
  {
   "property": "C34",
   "status": "proved",
   "theorems": [
    "Coniks.Props.C34_accept_iff",
    "Coniks.Props.C34_acceptance",
    "Coniks.Props.C34_status"
   ],
   "note": "Exact characterisation of acceptance (iff), for clients created by New (TBs on), plus the guarantees spelled out."
  },
  {
   "property": "C35",
   "status": "partial",
   "theorems": [
    "Coniks.Props.C35_never_recorded_counterexample",
    "Coniks.Props.C35_caller_pins_partial",
    "Coniks.Props.C35_key_swap_counterexample"
   ],
   "note": "Refuted as stated: no key is ever recorded (C35_never_recorded_counterexample) and a key swap is accepted (C35_key_swap_counterexample). Proved: pinning holds when the caller passes the key."
  },
  {
   "property": "C36",
   "status": "partial",
   "theorems": [
    "Coniks.Props.C36_fulfilled_partial",
    "Coniks.Props.C36_other_value_refused",
    "Coniks.Props.C36_absence_counterexample",
    "Coniks.Props.C36_second_promise_counterexample"
   ],
   "note": "Proved for lookups that show a key in the tree. Refuted for absence (C36_absence_counterexample) and for a second, different promise (C36_second_promise_counterexample)."
  },
  {
   "property": "C37",
   "status": "partial",
   "theorems": [
    "Coniks.Props.C37_handle_total_partial",
    "Coniks.Props.C37_equivocation_total_partial",
    "Coniks.Props.C37_request_type_counterexample",
    "Coniks.Props.C37_panic_counterexamples",
    "Coniks.Props.C37_equivocation_counterexample",
    "Coniks.Props.C37_panics_iff",
    "Coniks.Props.C37_equivocation_panics_iff"
   ],
   "note": "No panic for registrations/lookups on responses with the listed parts and for histories with non-nil first/last STRs and policies. Refuted otherwise (request types, nil parts, wrong payload type). C37_panics_iff and C37_equivocation_panics_iff say exactly which responses crash HandleResponse and CheckEquivocation."
  },
  {
   "property": "C38",
   "status": "proved",
   "theorems": [
    "Coniks.Props.C38_refused",
    "Coniks.Props.C38_accepted_frame"
   ],
   "note": "A refused response changes neither bindings nor promises, and the STR at most to its signed linked successor; an accepted one changes only its own name."
  },
  {
   "property": "C39",
   "status": "proved",
   "theorems": [
    "Coniks.Props.C39_audit_accepts_iff",
    "Coniks.Props.C39_audit_rejects",
    "Coniks.Props.C39_honest_history_accepted"
   ],
   "note": ""
  },
  {
   "property": "C40",
   "status": "partial",
   "theorems": [
    "Coniks.Props.C40_accepts_iff",
    "Coniks.Props.C40_equivocation_detected_partial",
    "Coniks.Props.C40_same_content",
    "Coniks.Props.C40_latest_differs",
    "Coniks.Props.C40_unsigned_first_counterexample"
   ],
   "note": "acceptance characterised exactly; a different latest STR is always refused; a different STR at an inner position is shown to need the same signature; refuted for the first STR of a range, whose signature is never checked (general counterexample)"
  },
  {
   "property": "C41",
   "status": "partial",
   "theorems": [
    "Coniks.Props.C41_one_step",
    "Coniks.Props.C41_same_past_partial",
    "Coniks.Props.C41_client_and_auditor_partial",
    "Coniks.Props.C41_ambiguous_parse_counterexample"
   ],
   "note": "proved for STRs with regular field lengths, under explicit no-collision and signature-binding hypotheses; refuted without the length condition (general counterexample: one signature, two readings, two pasts)"
  },
  {
   "property": "C42",
   "status": "proved",
   "theorems": [
    "Coniks.Props.C42_append_only",
    "Coniks.Props.C42_accepted_is_reported",
    "Coniks.Props.C42_unchecked_init_counterexample"
   ],
   "note": "for fewer than 2^64 STRs; starting from a valid initial history (InitHistory itself does not check it, shown)"
  },
  {
   "property": "C43",
   "status": "proved",
   "theorems": [
    "Coniks.Props.C43_isolation",
    "Coniks.Props.C43_no_reinit",
    "Coniks.Props.C43_init_refused",
    "Coniks.Props.C43_unknown"
   ],
   "note": ""
  },
  {
   "property": "C44",
   "status": "proved",
   "theorems": [
    "Coniks.Props.C44_error_no_change",
    "Coniks.Props.C44_audit_refused_iff"
   ],
   "note": ""
  },
  {
   "property": "C45",
   "status": "proved",
   "theorems": [
    "Coniks.Props.C45_linearizable",
    "Coniks.Props.C45_lock_discipline",
    "Coniks.Props.C45_code"
   ],
   "note": "for every schedule of any number of goroutines, any decomposition of the critical sections into steps; below 2^64 epochs"
  },
  {
   "property": "C46",
   "status": "proved",
   "theorems": [
    "Coniks.Props.C46_permissions",
    "Coniks.Props.C46_refused",
    "Coniks.Props.C46_permitted",
    "Coniks.Props.C46_writes",
    "Coniks.Props.C46_shared_pointer_counterexample"
   ],
   "note": "for address lists with distinct pointers, as TOML decoding yields; shown to be needed"
  },
  {
   "property": "C47",
   "status": "proved",
   "theorems": [
    "Coniks.Props.C47_dispatch",
    "Coniks.Props.C47_decoded",
    "Coniks.Props.C47_nil_counterexample"
   ],
   "note": ""
  },
  {
   "property": "C48",
   "status": "partial",
   "theorems": [
    "Coniks.Props.C48_intervals",
    "Coniks.Props.C48_timer_partial",
    "Coniks.Props.C48_newConfig_counterexample",
    "Coniks.Props.C48_reload_counterexample",
    "Coniks.Props.C48_overflow_counterexample"
   ],
   "note": "Proved when both configured deadlines agree, fit and are never changed. Refuted for configurations made by NewConfig (timer 0), after a reload that changes the deadline, and for huge deadlines."
  },
  {
   "property": "C49",
   "status": "proved",
   "theorems": [
    "Coniks.Props.C49_forwards_iff",
    "Coniks.Props.C49_run",
    "Coniks.Props.C49_end_to_end",
    "Coniks.Props.C49_one_owner",
    "Coniks.Props.C49_end_to_end_json"
   ],
   "note": "Unicode case mapping is abstract; C49_end_to_end_json is for the decoder of the Go library, the others for every decoder"
  },
  {
   "property": "C50",
   "status": "partial",
   "theorems": [
    "Coniks.Props.C50_writeFile_partial",
    "Coniks.Props.C50_race_counterexample",
    "Coniks.Props.C50_stat_counterexample"
   ],
   "note": "Existing files are unchanged and success means the content is there, absent other writers; a failed write leaves a partial file, and two processes racing can overwrite (counterexamples)."
  },
  {
   "property": "C52",
   "status": "partial",
   "theorems": [
    "Coniks.Props.C52_nothing_after_shutdown",
    "Coniks.Props.C52_no_deadlock",
    "Coniks.Props.C52_no_crash_partial",
    "Coniks.Props.C52_crash_iff",
    "Coniks.Props.C52_two_listeners_counterexample"
   ],
   "note": "Nothing runs after Shutdown and Shutdown can always complete, for any number of listeners. No crash proved for one listener; refuted for two, which share one wait group; C52_crash_iff: some execution crashes exactly if there are two."
  },
  {
   "property": "C58",
   "status": "partial",
   "theorems": [
    "Coniks.Props.C58_reload_partial",
    "Coniks.Props.C58_missing_table_counterexample",
    "Coniks.Props.C58_reload_iff"
   ],
   "note": "Proved for files with both tables; a file without [policies] or [logger] crashes the server (counterexample). C58_reload_iff says exactly what a reload does for every file."
  },
  {
   "property": "C59",
   "status": "partial",
   "theorems": [
    "Coniks.Props.C59_initSTR_partial",
    "Coniks.Props.C59_restart_counterexample"
   ],
   "note": "Proved when the file did not exist before; refuted for a restart and for a failed write."
  },
  {
   "property": "C60",
   "status": "partial",
   "theorems": [
    "Coniks.Props.C60_keyFiles_partial",
    "Coniks.Props.C60_stale_public_key_counterexample",
    "Coniks.Props.C60_private_key_kept"
   ],
   "note": "Proved when neither file existed or both writes succeed; refuted with a left-over public key file."
  },
  {
   "property": "C53",
   "status": "proved",
   "theorems": [
    "Coniks.Props.C53_products",
    "Coniks.Props.C53_sums",
    "Coniks.Props.C53_powers",
    "Coniks.Props.C53_toBytes",
    "Coniks.Props.C53_fromBytes",
    "Coniks.Props.C53_cmove"
   ],
   "note": "Straight-line code as checked programs of machine operations; an interval analysis proved sound shows that no operation wraps, a polynomial check proved sound that the result is right modulo p."
  },
  {
   "property": "C54",
   "status": "proved",
   "theorems": [
    "Coniks.Props.C54_reduce_muladd",
    "Coniks.Props.C54_neg"
   ],
   "note": "As C53. ScNeg exactly, for every 32-byte argument; it is a negative modulo l for arguments up to l (VRF.Prove gives it a reduced scalar)."
  },
  {
   "property": "C55",
   "status": "proved",
   "theorems": [
    "Coniks.Props.C55_group",
    "Coniks.Props.C55_add_double",
    "Coniks.Props.C55_scalarMult",
    "Coniks.Props.C55_scalarMultBase",
    "Coniks.Props.C55_doubleScalarMult",
    "Coniks.Props.C55_doubleScalarMult_top"
   ],
   "note": "Edwards group law proved (associativity by certificates), group order 8l, base table of 256 points checked by the kernel. GeScalarMultBase and GeDoubleScalarMultVartime for scalars below 2^255; C55_doubleScalarMult_top shows the bound is needed."
  },
  {
   "property": "C56",
   "status": "proved",
   "theorems": [
    "Coniks.Props.C56_toBytes",
    "Coniks.Props.C56_fromBytes",
    "Coniks.Props.C56_fromBytesBaseGroup",
    "Coniks.Props.C56_fromBytesBaseGroup_value",
    "Coniks.Props.C56_toExtended",
    "Coniks.Props.C56_fromBytes_not_canonical"
   ],
   "note": "FromBytes by itself also accepts y >= p (C56_fromBytes_not_canonical); FromBytesBaseGroup does not."
  },
  {
   "property": "C57",
   "status": "proved",
   "theorems": [
    "Coniks.Props.C57_hashToEdwards",
    "Coniks.Props.C57_collisions",
    "Coniks.Props.C57_small_order"
   ],
   "note": "The documented claim that collision resistance is preserved holds up to the four-to-one relation of C57_collisions."
  },
  {
   "property": "C51",
   "status": "partial",
   "theorems": [
    "Coniks.Props.C51_same_str_same_view_partial",
    "Coniks.Props.C51_forever_partial",
    "Coniks.Props.C51_split_promise_noticed_partial",
    "Coniks.Props.C51_empty_flag_counterexample",
    "Coniks.Props.C51_two_promises_counterexample"
   ],
   "note": "Proved for proofs shaped like honest ones, under explicit no-collision, VRF-agreement and signature-binding hypotheses; refuted without the shape conditions (for every scheme) and for promises; a split promise is noticed by one of the clients once both look the name up in the tree."
  },
  {
   "property": "C61",
   "status": "proved",
   "theorems": [
    "Coniks.Props.C61_response_roundtrip",
    "Coniks.Props.C61_honest_answers_arrive",
    "Coniks.Props.C61_codes",
    "Coniks.Props.C61_reads",
    "Coniks.Props.C61_history_reads"
   ],
   "note": "encoding/json modelled as text (escapes, base64, case-insensitive fields, duplicate and unknown members, null); the decoder is proved to invert the encoder; C61_reads and C61_history_reads say exactly which texts are read as which answer."
  },
  {
   "property": "C62",
   "status": "partial",
   "theorems": [
    "Coniks.Props.C62_registration",
    "Coniks.Props.C62_lookup",
    "Coniks.Props.C62_epoch_requests",
    "Coniks.Props.C62_iff_utf8",
    "Coniks.Props.C62_reads",
    "Coniks.Props.C62_texts",
    "Coniks.Props.C62_names_collide_counterexample",
    "Coniks.Props.C62_session",
    "Coniks.Props.C62_honest_session_partial"
   ],
   "note": "Round trip exactly for the names that are valid UTF-8; names that are not are replaced and collide (counterexample). C62_reads: exactly which bytes are read as which request, against an independent description of what a JSON object says. The session theorem needs permission to register and messages of at most 8192 bytes; the honest session inherits the conditions of C33."
  },
  {
   "property": "C63",
   "status": "partial",
   "theorems": [
    "Coniks.Props.C63_crash_iff",
    "Coniks.Props.C63_big_key_counterexample",
    "Coniks.Props.C63_long_request",
    "Coniks.Props.C63_cut_reply",
    "Coniks.Props.C63_long_answer",
    "Coniks.Props.C63_unmarshal_total",
    "Coniks.Props.C63_audit_type_counterexample",
    "Coniks.Props.C63_crash_counterexample",
    "Coniks.Props.C63_no_bytes_crash_server"
   ],
   "note": "Cut-off messages and the server proved; refuted for the client: three short replies crash it (C63_crash_iff: exactly which replies do), and every audit answer with a body; a key of 5980 bytes or more can be registered but neither the answer nor any later lookup of it fits into the 8192 bytes a client reads (C63_big_key_counterexample)."
  },
  {
   "property": "C64",
   "status": "partial",
   "theorems": [
    "Coniks.Props.C64_session_partial",
    "Coniks.Props.C64_old_str_counterexample",
    "Coniks.Props.C64_registered_means",
    "Coniks.Props.C64_not_registered_means",
    "Coniks.Props.C64_lookup_prints_no_key",
    "Coniks.Props.C64_no_key_pinned",
    "Coniks.Props.C64_words",
    "Coniks.Props.C64_commands",
    "Coniks.Props.C64_exit",
    "Coniks.Props.C64_local",
    "Coniks.Props.C64_warning",
    "Coniks.Props.C64_error_texts",
    "Coniks.Props.C64_bad_address",
    "Coniks.Props.C64_exact"
   ],
   "note": "C64_exact: every session with an honest server over a working network prints exactly the lines computed from the abstract directory, for every VRF and however far the client is behind (messages up to 8192 bytes); C64_session_partial is the readable special case under the conditions of C33. Refuted: lookups never show the key (GetKey is a stub), and a client started with an STR two epochs old only complains."
  },
  {
   "property": "C65",
   "status": "partial",
   "theorems": [
    "Coniks.Props.C65_str_partial",
    "Coniks.Props.C65_promise_partial",
    "Coniks.Props.C65_promise_is_str_counterexample"
   ],
   "note": "For every history and every signed byte string: an STR with regular lengths is one of the log, a promise is one that was made, unless a signature begins like an epoch number. Refuted without the conditions for every signature scheme: the answer to a registration of a 40-byte key is the signature of an STR that was never issued."
  },
  {
   "property": "C66",
   "status": "partial",
   "theorems": [
    "Coniks.Props.C66_go_keys",
    "Coniks.Props.C66_man_in_the_middle_partial",
    "Coniks.Props.C66_honest_traffic",
    "Coniks.Props.C66_shortened_key_counterexample",
    "Coniks.Props.C66_hidden_name_counterexample"
   ],
   "note": "For every history, client, sequence of calls and adversary: shown keys are the keys of a logged epoch if the salt has its length, absence is true if the proof is regular, promises were made. Honest traffic meets the hypotheses. Refuted: absence can be forged in small trees by moving nonce bytes into the leaf index; keys can be cut when the name occurs in them (for every choice of primitives)."
  },
  {
   "property": "C67",
   "status": "proved",
   "theorems": [
    "Coniks.Props.C67_fork",
    "Coniks.Props.C67_auditor_refuses",
    "Coniks.Props.C67_client_refuses",
    "Coniks.Props.C67_forgotten",
    "Coniks.Props.C67_second_identity"
   ],
   "note": "Two histories under the same keys whose first random draws differ never share or continue an STR (no hash collision among their signatures, one signature fits one content); sessions of old clients end in CheckBadSTR for ever with the state unchanged; names are free again; the audit log keeps both under two identities."
  },
  {
   "property": "C68",
   "status": "partial",
   "theorems": [
    "Coniks.Props.C68_place",
    "Coniks.Props.C68_directory_of",
    "Coniks.Props.C68_absolute_unchanged",
    "Coniks.Props.C68_absolute_partial",
    "Coniks.Props.C68_canonical",
    "Coniks.Props.C68_same_place",
    "Coniks.Props.C68_relative_counterexample",
    "Coniks.Props.C68_empty"
   ],
   "note": "Place, canonical form and the absolute case proved for all byte strings with lexical path semantics (no symbolic links). Missing: the result is absolute only if one of the two paths is (C68_relative_counterexample)."
  },
  {
   "property": "C69",
   "status": "partial",
   "theorems": [
    "Coniks.Props.C69_saved_str_loads",
    "Coniks.Props.C69_reads",
    "Coniks.Props.C69_crash_partial",
    "Coniks.Props.C69_crash_counterexample",
    "Coniks.Props.C69_unsigned_counterexample",
    "Coniks.Props.C69_wrong_str_refused",
    "Coniks.Props.C69_client_starts",
    "Coniks.Props.C69_session_partial",
    "Coniks.Props.C69_default_paths"
   ],
   "note": "Round trip, refusal of other epochs, the composition of both configurations with a REPL session, and the bound on the harm of a wrong STR are proved. Refuted: three files crash the client; the signature of the initial STR is not checked. Exact condition of the crash in C69_crash_partial. TOML is a parameter."
  },
  {
   "property": "C70",
   "status": "partial",
   "theorems": [
    "Coniks.Props.C70_loads_iff",
    "Coniks.Props.C70_loaded",
    "Coniks.Props.C70_moved",
    "Coniks.Props.C70_crash_partial",
    "Coniks.Props.C70_reload",
    "Coniks.Props.C70_stores",
    "Coniks.Props.C70_no_log_file_counterexample",
    "Coniks.Props.C70_init_then_run",
    "Coniks.Props.C70_elsewhere_counterexample"
   ],
   "note": "Exact loading condition, meaning of all paths, reload = C58. Refuted: missing tables crash; a configuration without log file crashes the server; `init` saves its relative path, which then decides where `run` stores the initial STR and what is reloaded. TOML is a parameter."
  },
  {
   "property": "C71",
   "status": "partial",
   "theorems": [
    "Coniks.Props.C71_message",
    "Coniks.Props.C71_ignored",
    "Coniks.Props.C71_replies",
    "Coniks.Props.C71_owner",
    "Coniks.Props.C71_no_crash",
    "Coniks.Props.C71_case_counterexample",
    "Coniks.Props.C71_old_messages",
    "Coniks.Props.C71_old_messages_gone",
    "Coniks.Props.C71_stuck_counterexample",
    "Coniks.Props.C71_list_counterexample"
   ],
   "note": "Outcome of every message, one answer each, ownership over all histories, no crash: proved with the JSON decoder of the Go library; Unicode case mapping and the Twitter API are parameters. Refuted: one account can register several names that differ in letter case; if the answer of the server is lost the user is told ErrDirectory though registered (part of C71_message); old messages stay if Twitter does not list them, and the bot never starts if one cannot be destroyed."
  },
  {
   "property": "C72",
   "status": "proved",
   "theorems": [
    "Coniks.Props.C72_same_group",
    "Coniks.Props.C72_base",
    "Coniks.Props.C72_public_key",
    "Coniks.Props.C72_public_key_multiple",
    "Coniks.Props.C72_public_key_collisions",
    "Coniks.Props.C72_private_key",
    "Coniks.Props.C72_scalar_base_mult",
    "Coniks.Props.C72_scalar_base_mult_order",
    "Coniks.Props.C72_representative",
    "Coniks.Props.C72_round_trip",
    "Coniks.Props.C72_key_pair",
    "Coniks.Props.C72_compare",
    "Coniks.Props.C72_compare_comment_wrong",
    "Coniks.Props.C72_constants"
   ],
   "note": "All four functions exactly, against Curve25519 as an elliptic curve of Mathlib and an isomorphism with the Edwards curve. C72_compare_comment_wrong and C72_constants: the comments on feBytesLE, sqrtMinusA and sqrtMinusHalf are wrong, the code is right."
  },
  {
   "property": "C73",
   "status": "proved",
   "theorems": [
    "Coniks.Props.C73_grammar",
    "Coniks.Props.C73_unique",
    "Coniks.Props.C73_refused",
    "Coniks.Props.C73_requests_written",
    "Coniks.Props.C73_answers_written"
   ],
   "note": "Grammar as an inductive relation between texts and values; reading is equivalent to derivation, values are unique. Nesting limit of newer Go versions not modelled."
  },
  {
   "property": "C74",
   "status": "proved",
   "theorems": [
    "Coniks.Props.C74_audit_exact",
    "Coniks.Props.C74_reason",
    "Coniks.Props.C74_equivocation",
    "Coniks.Props.C74_audit",
    "Coniks.Props.C74_broken_promise",
    "Coniks.Props.C74_state"
   ],
   "note": "Exact for a client that uses promises (the only kind New makes): the code returned is the one of a list of defects in order, written without the code; crashing responses are those of C37. The auditor half is one-directional in the crashing cases (if it returns)."
  },
  {
   "property": "C75",
   "status": "proved",
   "theorems": [
    "Coniks.Props.C75_answers",
    "Coniks.Props.C75_writes",
    "Coniks.Props.C75_writes_counterexample",
    "Coniks.Props.C75_marshal",
    "Coniks.Props.C75_code",
    "Coniks.Props.C75_cells"
   ],
   "note": "Memory of policies, STRs, promises and key slices; the trees are values here (isolation of snapshots: C17). C75_code has no hypotheses on the code of the sections. A program that overwrites a key slice after passing it to Register changes the promise the directory hands out, and nothing else (C75_writes, C75_writes_counterexample); the server never does."
  },
  {
   "property": "C76",
   "status": "proved",
   "theorems": [
    "Coniks.Props.C76_contents",
    "Coniks.Props.C76_put_lasts",
    "Coniks.Props.C76_delete_lasts",
    "Coniks.Props.C76_batch",
    "Coniks.Props.C76_failures",
    "Coniks.Props.C76_scan",
    "Coniks.Props.C76_prefix_scan"
   ],
   "note": "LevelDB itself is outside the repository and enters as the contract stated in Model/Store (atomic batches; a write with Sync is on the disk when it returns; iterators in key order over a snapshot); proved is that the wrapper turns this contract into the promise of kv.go. Errors of the disk are not modelled."
  },
  {
   "property": "C77",
   "status": "proved",
   "theorems": [
    "Coniks.Props.C77_field",
    "Coniks.Props.C77_cmove",
    "Coniks.Props.C77_powers",
    "Coniks.Props.C77_add",
    "Coniks.Props.C77_double",
    "Coniks.Props.C77_multiples",
    "Coniks.Props.C77_toBytes",
    "Coniks.Props.C77_fromBytes",
    "Coniks.Props.C77_fromParityAndY",
    "Coniks.Props.C77_toExtended",
    "Coniks.Props.C77_montgomery",
    "Coniks.Props.C77_scalars"
   ],
   "note": "edwardsToMontgomeryX is the exception (C77_montgomery): over its own argument it is wrong; it is unexported and its one caller passes different pointers. FeMul, FeSquare and ScMulAdd are taken as one step each: they read all limbs before they write any (cited lines)."
  },
  {
   "property": "C78",
   "status": "proved",
   "theorems": [
    "Coniks.Props.C78_answered",
    "Coniks.Props.C78_linearizable",
    "Coniks.Props.C78_no_deadlock",
    "Coniks.Props.C78_reader_waits_for_one_writer",
    "Coniks.Props.C78_writer_not_overtaken",
    "Coniks.Props.C78_reader_preference_counterexample"
   ],
   "note": "The lock is Go's sync.RWMutex by its documented contract (a blocked Lock excludes new readers; Unlock lets in the waiting readers before the next writer); fairness of Go's scheduler and of the mutex among writers are explicit hypotheses; C78_reader_preference_counterexample shows that a lock without writer preference would let epochs starve. Network input and output, timers and signals are events that may come at any time or never."
  },
  {
   "property": "C79",
   "status": "partial",
   "theorems": [
    "Coniks.Props.C79_start_iff",
    "Coniks.Props.C79_failed_start",
    "Coniks.Props.C79_reach",
    "Coniks.Props.C79_who_answers",
    "Coniks.Props.C79_restart",
    "Coniks.Props.C79_after_crash_partial",
    "Coniks.Props.C79_crash_counterexample",
    "Coniks.Props.C79_unix_address",
    "Coniks.Props.C79_plain_unix_address",
    "Coniks.Props.C79_tcp_address",
    "Coniks.Props.C79_relative_path_counterexample",
    "Coniks.Props.C79_default_counterexample",
    "Coniks.Props.C79_default_bot",
    "Coniks.Props.C79_default_client_counterexample",
    "Coniks.Props.C79_takeover_counterexample"
   ],
   "note": "Proved for starting (iff), being reached, who answers, failed starts and restart after an orderly shutdown, for all histories of the machine. Refuted: after a crash the file of a Unix socket stays and the server does not start again until it is removed by hand (C79_after_crash_partial, C79_crash_counterexample); the default client cannot register at the default server (C79_default_client_counterexample); a default server without certificate blocks its own next start (C79_default_counterexample). The operating system enters by its contract for bind, unlink and close."
  },
  {
   "property": "C80",
   "status": "partial",
   "theorems": [
    "Coniks.Props.C80_written_iff",
    "Coniks.Props.C80_history_partial",
    "Coniks.Props.C80_history_counterexample",
    "Coniks.Props.C80_failed_run_counterexample",
    "Coniks.Props.C80_stays"
   ],
   "note": "Refuted: the file is not truncated and is written before the configuration is read. C80_history_partial says exactly in which histories it names the process; C80_history_counterexample and C80_failed_run_counterexample what it names otherwise."
  },
  {
   "property": "C81",
   "status": "partial",
   "theorems": [
    "Coniks.Props.C81_runs_iff",
    "Coniks.Props.C81_untouched",
    "Coniks.Props.C81_relative_counterexample",
    "Coniks.Props.C81_init_then_run",
    "Coniks.Props.C81_init_keeps",
    "Coniks.Props.C81_message",
    "Coniks.Props.C81_owner",
    "Coniks.Props.C81_default",
    "Coniks.Props.C81_stale_counterexample",
    "Coniks.Props.C81_ignored",
    "Coniks.Props.C81_no_crash"
   ],
   "note": "Proved exactly: when the bot comes up (C81_runs_iff), what it touches (C81_untouched), init then run (C81_init_then_run, C81_init_keeps), one message on a machine (C81_message), the default bot and server for all histories (C81_default), who owns a name (C81_owner), no crash (C81_no_crash). Refuted: the bot also starts when the server has crashed, because it only looks for the socket's file (C81_stale_counterexample), and a relative path is not taken from the configuration's place (C81_relative_counterexample)."
  },
  {
   "property": "C82",
   "status": "partial",
   "theorems": [
    "Coniks.Props.C82_command",
    "Coniks.Props.C82_perfect",
    "Coniks.Props.C82_session",
    "Coniks.Props.C82_retry",
    "Coniks.Props.C82_lockout_counterexample",
    "Coniks.Props.C82_no_crash",
    "Coniks.Props.C82_every_session",
    "Coniks.Props.C82_deep_paths_cut",
    "Coniks.Props.C82_lines"
   ],
   "note": "Proved: one command and whole sessions under all failures (C82_command, C82_session, C82_lines), a working network is C64 (C82_perfect), repeating a registration (C82_retry); no honest server and no failure crashes the client, for every VRF and client state (C82_no_crash): answers it could not bear are longer than it reads. Refuted: one failed lookup can let the client fall two epochs behind, after which it never accepts anything again (C82_lockout_counterexample). The network loses and cuts; bytes that are not the server's are C37, C63 and C66."
  },
  {
   "property": "C83",
   "status": "proved",
   "theorems": [
    "Coniks.Props.C83_answers",
    "Coniks.Props.C83_requests",
    "Coniks.Props.C83_all_fit",
    "Coniks.Props.C83_session",
    "Coniks.Props.C83_cli",
    "Coniks.Props.C83_go_sizes",
    "Coniks.Props.C83_go_all_fit"
   ],
   "note": "The bounds are explicit (C83_answers, C83_requests); sizes of VRF keys and proofs are proved for the code's VRF (C83_go_sizes). That indices part within 42 bits is a hypothesis on the names asked for (C82_deep_paths_cut: below level 126 nothing arrives). What happens with keys of 6000 bytes: C63_big_key_counterexample."
  },
  {
   "property": "C84",
   "status": "proved",
   "theorems": [
    "Coniks.Props.C84_isolated",
    "Coniks.Props.C84_agreement",
    "Coniks.Props.C84_everybody_served",
    "Coniks.Props.C84_shown_once_shown_always",
    "Coniks.Props.C84_besieged"
   ],
   "note": "C84_isolated (projection to the sessions of C33), C84_agreement (any client states; distinct indices only), C84_everybody_served (all that all users hear is a function of the abstract directory; users keep up, indices spread over 248 bits, usable names), C84_shown_once_shown_always, C84_besieged (hypotheses of C66; inclusion counts with a 32-byte salt, see C66). The same about a dishonest directory: C51 (it can show different users different keys), C40 and C41."
  },
  {
   "property": "C85",
   "status": "partial",
   "theorems": [
    "Coniks.Props.C85_exact",
    "Coniks.Props.C85_check",
    "Coniks.Props.C85_anew",
    "Coniks.Props.C85_no_false_alarm",
    "Coniks.Props.C85_diligent_auditor",
    "Coniks.Props.C85_late_auditor_counterexample",
    "Coniks.Props.C85_false_alarm_counterexample"
   ],
   "note": "C85_exact computes everything that is returned, and every crash, for every interleaving (cache length at least 2; fewer than 2^64 - 1 epochs). The claim itself is refuted: CheckEquivocation accepts only ranges that end at the user's epoch or the next, so with all parties honest a user ahead of the auditor or two epochs behind it is told CheckBadSTR (C85_check, C85_false_alarm_counterexample); a user who asks for a range that ends at its own epoch is never told so (C85_no_false_alarm). An auditor that is away for at most size - size/2 epochs catches up (C85_diligent_auditor), one away for more than size epochs never learns another STR, and asking crashes the directory (C85_late_auditor_counterexample, C85_exact). C85_anew: a user who begins anew with the newest STR is out of every such situation."
  },
  {
   "property": "C86",
   "status": "proved",
   "theorems": [
    "Coniks.Props.C86_one_history",
    "Coniks.Props.C86_same_str",
    "Coniks.Props.C86_same_signature",
    "Coniks.Props.C86_check_exact",
    "Coniks.Props.C86_fork_caught",
    "Coniks.Props.C86_same_view",
    "Coniks.Props.C86_same_past",
    "Coniks.Props.C86_two_auditors_counterexample"
   ],
   "note": "C86_one_history: at every moment there is one hash chain, reported by the log, that contains the STR of every client that passes now or passed earlier (range ending at its own epoch); no assumption about the cryptography. C86_same_str and C86_fork_caught (with the exact result of a check, C86_check_exact) follow; for other ranges the hash of the signature is the same (C86_same_signature; the client must not be at epoch 2^64 - 1). C86_same_view and C86_same_past give the keys, also for answers long ago; they use C51 and C41 and so assume proofs and STRs of the shape the code produces (without: C51_empty_flag_counterexample, C41_ambiguous_parse_counterexample), no collision and no signature fitting two contents among the listed inputs. C86_two_auditors_counterexample, for every cryptography, shows that the same auditor is needed. The initial chain given to InitHistory must be a chain (the code does not check it, C42)."
  },
  {
   "property": "C87",
   "status": "proved",
   "theorems": [
    "Coniks.Props.C87_one_by_one",
    "Coniks.Props.C87_answers",
    "Coniks.Props.C87_no_crash",
    "Coniks.Props.C87_progress",
    "Coniks.Props.C87_every_order",
    "Coniks.Props.C87_agreement",
    "Coniks.Props.C87_everybody_served",
    "Coniks.Props.C87_real_time"
   ],
   "note": "C87_one_by_one: refinement of the sequential world of C84 by the small-step server of C45 with clients around it, for every cryptography, client state and schedule (calls whose answers are lost count as calls at the directory). C87_answers, C87_no_crash (no condition on the VRF), C87_progress, C87_every_order (the converse: every order of the calls is the outcome of some schedule). C87_agreement (distinct indices), C87_real_time (a key heard before a call is sent is in its answer; users need not keep up), C87_everybody_served (spread indices, usable names, users who keep up). An answer of more than 8192 bytes counts as lost. Fairness, so that everybody is served in the end, is C78."
  },
  {
   "property": "C88",
   "status": "partial",
   "theorems": [
    "Coniks.Props.C88_audit_panics_iff",
    "Coniks.Props.C88_log_panics_iff",
    "Coniks.Props.C88_total_partial",
    "Coniks.Props.C88_honest",
    "Coniks.Props.C88_crash_counterexample",
    "Coniks.Props.C88_wire_counterexample"
   ],
   "note": "Refuted: a nil STR, the bare number of the next epoch (unsigned), a nil payload or the answer to another request crash the auditor and lose the logs of all directories (C88_crash_counterexample, from bytes C88_wire_counterexample). C88_audit_panics_iff and C88_log_panics_iff say exactly which ranges and calls do; C88_total_partial is the part that holds; C88_honest: no answer of an honest directory is one of them, whatever the auditor holds. With C74_audit_exact the result of AuditDirectory is determined for every input."
  },
  {
   "property": "C89",
   "status": "proved",
   "theorems": [
    "Coniks.Props.C89_session",
    "Coniks.Props.C89_lines",
    "Coniks.Props.C89_no_crash",
    "Coniks.Props.C89_bad_address_counterexample",
    "Coniks.Props.C89_down",
    "Coniks.Props.C89_private"
   ],
   "note": "For client programs whose addresses Go can read; a program with another address starts and crashes at the first command (C89_bad_address_counterexample; C69). C89_session follows one process from its start to the end of any history that spares it, through C79_reach at every moment; C89_lines adds what is printed (C64, C82) for messages that fit (8192 bytes). The commands of one terminal and the events of the machine are interleaved command by command; interleavings inside a server are C45 and C87."
  },
  {
   "property": "C90",
   "status": "proved",
   "theorems": [
    "Coniks.Props.C90_locked",
    "Coniks.Props.C90_holds",
    "Coniks.Props.C90_restart",
    "Coniks.Props.C90_other_server",
    "Coniks.Props.C90_behind"
   ],
   "note": "C90_locked is the general form: the outcome is decided by whether one of the STRs current from then on is the one held or a signed successor of it (and the key never changes, the STR only to one of this directory). C90_restart, C90_other_server and C90_behind are the three cases; C90_holds says which STR a program that has followed a server holds, so that C90_restart applies to it. C90_restart assumes, as C67, that the hash does not collide on the signatures issued and the bytes drawn at the starts, and that no signature fits two contents. Addresses as in C89. A server at its very first STR, or at epoch numbers that happen to fit, gives no way out: the link is the hash of the previous signature, which begins with fresh random bytes. The answer the user reads is the text of CheckBadSTR or of the failed network; the first line of output begins with \"[+] Error\"."
  },
  {
   "property": "C91",
   "status": "proved",
   "theorems": [
    "Coniks.Props.C91_owner",
    "Coniks.Props.C91_found",
    "Coniks.Props.C91_served"
   ],
   "note": "C91_owner: safety at the directory; C91_found: what a terminal may conclude from the word Found; C91_served: the owner is served. The condition BotOnly (no connection and no client program registers at the bot's path) is needed: the file permissions of the socket are not modelled, and a client program whose registration address is that path can register any free name. The VRF is assumed to tell the name and the names asked for apart."
  },
  {
   "property": "C92",
   "status": "partial",
   "theorems": [
    "Coniks.Props.C92_directory",
    "Coniks.Props.C92_auditor",
    "Coniks.Props.C92_auditor_iff",
    "Coniks.Props.C92_forever_counterexample",
    "Coniks.Props.C92_last_epoch_counterexample"
   ],
   "note": "Proved for every history of a directory with fewer than 2^64 - 1 updates (C92_directory) and for every auditor whose newest STR is not of epoch 2^64 - 1 (C92_auditor), with the number of rounds and the one possible outcome. Refuted at the last number: the loop condition ep <= end never fails for end = 2^64 - 1. An auditor initialised with such an STR (InitHistory checks nothing) never finishes the request (C92_forever_counterexample; C92_auditor_iff says exactly which requests); a directory in its last epoch crashes, as the counter goes back to the evicted epoch 0 (C92_last_epoch_counterexample)."
  },
  {
   "property": "C93",
   "status": "proved",
   "theorems": [
    "Coniks.Props.C93_exact",
    "Coniks.Props.C93_crash",
    "Coniks.Props.C93_no_false_alarm"
   ],
   "note": "C93_exact (what everybody hears and holds, by projection of the run onto one user and the table of C85), C93_crash (nobody crashes unless a table says so or a foreign call is one of those of C88), C93_no_false_alarm. Needs different identities (no collision among the hashes of the first signatures) and cache lengths of at least 2. The false alarms that C85 found for users who are not at the end of the range are in the table here as well."
  },
  {
   "property": "C94",
   "status": "proved",
   "theorems": [
    "Coniks.Props.C94_told_the_same",
    "Coniks.Props.C94_commitments_counterexample"
   ],
   "note": "C94_told_the_same (C94_commitments_counterexample: equal commitments are needed), for the directory model of C25; the names in the two histories are the same, and the other users' names have other places in the tree than the group's (no collision of VRF values between them). What commitments, places and depths tell is not claimed to be nothing. The example uses a hash with easy collisions to meet the hypotheses with two different keys."
  }
 ]
}