{
 "claims": [
  {
   "property": "C01",
   "status": "proved",
   "theorems": [
    "Verif.Payments.C01_open_payments_backed"
   ],
   "note": "Invariant over all histories (calls, scheduler, ticks, outside balance changes), any finite set of payments."
  },
  {
   "property": "C02",
   "status": "proved",
   "theorems": [
    "Verif.Payments.C02_calls_conserve_money",
    "Verif.Payments.C02_burn_is_only_dust",
    "Verif.Payments.C02_failed_call_changes_nothing",
    "Verif.Payments.C02_scheduler_conserves_money"
   ],
   "note": "Conservation for every successful call and for scheduler runs; failed calls change nothing; burned dust bounded by twice the asset minimum."
  },
  {
   "property": "C03",
   "status": "proved",
   "theorems": [
    "Verif.Payments.C03_pay_escrows_exactly"
   ],
   "note": "Exact totals and holds for all accounts and assets, including paying oneself."
  },
  {
   "property": "C04",
   "status": "proved",
   "theorems": [
    "Verif.Payments.C04_release_exact"
   ],
   "note": "Exact; assumes the fee sums fit the balance type (otherwise aggregation saturates)."
  },
  {
   "property": "C05",
   "status": "proved",
   "theorems": [
    "Verif.Payments.C05_cancel_exact",
    "Verif.Payments.C05_cancel_leaves_no_dust",
    "Verif.Payments.C05_cancel_undoes_pay",
    "Verif.Payments.C05_cancel_rest"
   ],
   "note": "Exact one-step theorem, and the end-to-end theorem over an arbitrary history between pay and cancel, when the ledger swept or burned nothing; C05_cancel_rest drops that hypothesis and says what happens to a rest below the minimum."
  },
  {
   "property": "C06",
   "status": "proved",
   "theorems": [
    "Verif.Payments.C06_resolve_any_fees",
    "Verif.Payments.C06_resolve_exact",
    "Verif.Payments.C06_resolve_rests"
   ],
   "note": "Exact for every fee list (C06_resolve_any_fees), and entry by entry where no recipient has both kinds of flags (C06_resolve_exact; see C26), when the ledger swept or burned nothing; C06_resolve_rests drops that hypothesis. Fee sums fit the balance type."
  },
  {
   "property": "C07",
   "status": "proved",
   "theorems": [
    "Verif.Payments.C07_hold_equals_release",
    "Verif.Payments.C07_every_end"
   ],
   "note": "For all fee lists, flags and saturating sums."
  },
  {
   "property": "C08",
   "status": "partial",
   "theorems": [
    "Verif.Payments.C08_state_machine_partial",
    "Verif.Payments.C08_terms_never_change",
    "Verif.Payments.C08_undocumented_edge_fails"
   ],
   "note": "accept_and_pay adds an undocumented move RefundRequested->Finished (proved as _fails); everything else proved, plus immutability of the terms."
  },
  {
   "property": "C09",
   "status": "proved",
   "theorems": [
    "Verif.Payments.C09_only_entitled_party"
   ],
   "note": "Full."
  },
  {
   "property": "C10",
   "status": "proved",
   "theorems": [
    "Verif.Payments.C10_at_most_one_payment",
    "Verif.Payments.C10_only_named_id"
   ],
   "note": "Full, also for index entries and scheduled tasks."
  },
  {
   "property": "C11",
   "status": "partial",
   "theorems": [
    "Verif.Payments.C11_finished_record_final_partial",
    "Verif.Payments.C11_finished_calls_fail_partial",
    "Verif.Payments.C11_paid_twice_fails"
   ],
   "note": "The record is final over all histories and all other calls fail; accept_and_pay moves funds again (proved as _fails)."
  },
  {
   "property": "C12",
   "status": "partial",
   "theorems": [
    "Verif.Payments.C12_accept_partial",
    "Verif.Payments.C12_accepts_any_state_fails"
   ],
   "note": "False of the code: accept_and_pay works in every state (_fails). Partial: it needs a record of the caller and touches no hold."
  },
  {
   "property": "C13",
   "status": "partial",
   "theorems": [
    "Verif.Payments.C13_accept_exact_partial",
    "Verif.Payments.C13_wrong_beneficiary_fails",
    "Verif.Payments.C13_accept_rest_partial",
    "Verif.Payments.C13_no_collision_partial",
    "Verif.Payments.C13_own_id_partial"
   ],
   "note": "Proved when the id index belongs to this sender, over all histories without id collisions, and over histories in which only this id is not given to another sender (C13_own_id_partial); with an id collision the wrong account is paid (_fails)."
  },
  {
   "property": "C14",
   "status": "proved",
   "theorems": [
    "Verif.Payments.C14_request_moves_nothing",
    "Verif.Payments.C14_only_sender_fulfils"
   ],
   "note": "Full."
  },
  {
   "property": "C15",
   "status": "proved",
   "theorems": [
    "Verif.Payments.C15_refund_deadline",
    "Verif.Payments.C15_overflow_fails_cleanly"
   ],
   "note": "Full."
  },
  {
   "property": "C16",
   "status": "proved",
   "theorems": [
    "Verif.Payments.C16_dispute_before_deadline",
    "Verif.Payments.C16_no_dispute_after_deadline",
    "Verif.Payments.C16_can_dispute"
   ],
   "note": "Both directions: never at or after the deadline; always possible before it when the ledger accepts the hold."
  },
  {
   "property": "C17",
   "status": "proved",
   "theorems": [
    "Verif.Payments.C17_review_only_ends_by_resolution",
    "Verif.Payments.C17_dispute_removes_task"
   ],
   "note": "Full: over all later histories."
  },
  {
   "property": "C18",
   "status": "proved",
   "theorems": [
    "Verif.Payments.C18_no_early_refund"
   ],
   "note": "Full: reachable-state invariant on deadlines and scheduled tasks."
  },
  {
   "property": "C19",
   "status": "proved",
   "theorems": [
    "Verif.Payments.C19_cancellation_is_scheduled",
    "Verif.Payments.C19_refund_completes",
    "Verif.Payments.C19_undisputed_refund_happens",
    "Verif.Payments.C19_every_history",
    "Verif.Payments.C19_untouched_is_refunded"
   ],
   "note": "Scheduled before the deadline in every reachable state; completes when run and the ledger accepts; end to end over block ticks; in every history in which no other sender is given this id, whatever ids others are given (C19_every_history)."
  },
  {
   "property": "C20",
   "status": "proved",
   "theorems": [
    "Verif.Payments.C20_release_possible"
   ],
   "note": "Liveness with explicit balance conditions, including sender = beneficiary."
  },
  {
   "property": "C21",
   "status": "proved",
   "theorems": [
    "Verif.Payments.C21_parties_agree"
   ],
   "note": "Full."
  },
  {
   "property": "C22",
   "status": "partial",
   "theorems": [
    "Verif.Payments.C22_found_by_id_partial",
    "Verif.Payments.C22_orphaned_fails",
    "Verif.Payments.C22_own_id_partial",
    "Verif.Payments.C22_lost_only_by_reuse"
   ],
   "note": "Proved for histories without id reuse across senders, and for one payment if only its own id is not given to another sender (C22_own_id_partial); orphaning witnessed otherwise (_fails). In every history whatsoever a payment is lost only because its id was given to another sender while it was there (C22_lost_only_by_reuse)."
  },
  {
   "property": "C23",
   "status": "partial",
   "theorems": [
    "Verif.Payments.C23_no_stranded_holds_partial",
    "Verif.Payments.C23_stranded_holds_fails",
    "Verif.Payments.C23_held_exactly",
    "Verif.Payments.C23_stranded_for_good"
   ],
   "note": "Exact equality for histories where accept_and_pay never hits an escrowed payment; stranded holds witnessed otherwise (_fails), and over all histories their exact amount and that nothing frees it later (C23_held_exactly, C23_stranded_for_good)."
  },
  {
   "property": "C24",
   "status": "partial",
   "theorems": [
    "Verif.Payments.C24_task_matches_refund_partial",
    "Verif.Payments.C24_stale_task_fails",
    "Verif.Payments.C24_own_id_partial",
    "Verif.Payments.C24_tasks_act_for_beneficiary",
    "Verif.Payments.C24_tasks_were_asked_for"
   ],
   "note": "Proved for restricted histories, and for one id if only the actions on it are restricted (C24_own_id_partial); stale task cancels a later payment (_fails). In every history a task was asked for by request_refund under its id and acts only on an open payment to the beneficiary in whose name it was made, exactly as if that beneficiary cancelled (C24_tasks_were_asked_for, C24_tasks_act_for_beneficiary)."
  },
  {
   "property": "C25",
   "status": "proved",
   "theorems": [
    "Verif.Payments.C25_no_overwrite"
   ],
   "note": "Full."
  },
  {
   "property": "C26",
   "status": "partial",
   "theorems": [
    "Verif.Payments.C26_dispute_charges_flagged_partial",
    "Verif.Payments.C26_dispute_charges_by_first",
    "Verif.Payments.C26_mixed_flags_fails",
    "Verif.Payments.Kreivo.C26_kreivo"
   ],
   "note": "Proved for lists without mixed flags per recipient; mixed flags witnessed (_fails). C26_dispute_charges_by_first says what is charged of any list."
  },
  {
   "property": "C27",
   "status": "proved",
   "theorems": [
    "Verif.Payments.C27_aggregation_lossless",
    "Verif.Payments.C27_aggregation_same_effect"
   ],
   "note": "Full."
  },
  {
   "property": "C28",
   "status": "partial",
   "theorems": [
    "Verif.Payments.C28_beneficiary_never_loses_partial",
    "Verif.Payments.C28_beneficiary_loses_fails",
    "Verif.Payments.Kreivo.C28_kreivo"
   ],
   "note": "Proved when beneficiary fees do not exceed the amount; a tiny payment with a minimum fee costs the beneficiary money (_fails). On Kreivo exactly when the amount is below the minimum of the asset and the beneficiary is no community (C28_kreivo)."
  },
  {
   "property": "C29",
   "status": "proved",
   "theorems": [
    "Verif.Payments.Kreivo.C29_every_record",
    "Verif.Payments.Kreivo.C29_pay_fees",
    "Verif.Payments.Kreivo.C29_request_fees",
    "Verif.Payments.Kreivo.C29_communities_exempt"
   ],
   "note": "Full for pay and request_payment on the Kreivo configuration, exemption proved for both parties; stored records keep the fees of the minimum at their creation, in every history, also if the minimum changes later."
  },
  {
   "property": "C30",
   "status": "proved",
   "theorems": [
    "Verif.Payments.Kreivo.C30_lifecycle_exact",
    "Verif.Payments.Kreivo.C30_cost_bounds"
   ],
   "note": "Full: exact balances and bounds for pay then release on the Kreivo configuration."
  },
  {
   "property": "C31",
   "status": "proved",
   "theorems": [
    "Verif.Payments.C31_dispute_incentives",
    "Verif.Payments.C31_in_every_case"
   ],
   "note": "Full for every fee list whose sums fit; C31_in_every_case needs neither distinct accounts nor the absence of rests below the minimum."
  },
  {
   "property": "C32",
   "status": "proved",
   "theorems": [
    "Verif.Payments.C32_release_empties_escrow",
    "Verif.Payments.C32_resolve_empties_escrow"
   ],
   "note": "Full."
  },
  {
   "property": "C33",
   "status": "proved",
   "theorems": [
    "Verif.Payments.C33_third_parties_never_lose"
   ],
   "note": "Full."
  },
  {
   "property": "C34",
   "status": "proved",
   "theorems": [
    "Verif.Ids.C34_id_u64_id",
    "Verif.Ids.C34_u64_id_u64"
   ],
   "note": "Full: both directions, all ids and all 64-bit values."
  },
  {
   "property": "C35",
   "status": "proved",
   "theorems": [
    "Verif.Ids.C35_scale_roundtrip",
    "Verif.Ids.C35_scale_length",
    "Verif.Ids.C35_decode_total"
   ],
   "note": "Full: round trip with trailing input, exact length, decoding total on 8 or more bytes."
  },
  {
   "property": "C36",
   "status": "proved",
   "theorems": [
    "Verif.Ids.C36_print_parse",
    "Verif.Ids.C36_print_injective"
   ],
   "note": "Full, over an algorithmic model of the bs58 crate (trusted base)."
  },
  {
   "property": "C37",
   "status": "partial",
   "theorems": [
    "Verif.Ids.C37_parse_panics_iff_partial",
    "Verif.Ids.C37_short_or_undashed_partial",
    "Verif.Ids.C37_long_text_panics_fails"
   ],
   "note": "False of the code: a dash-separated text with more than 12 other characters panics (_fails); the exact panic set is proved."
  },
  {
   "property": "C38",
   "status": "proved",
   "theorems": [
    "Verif.Ids.C38_ids_distinct",
    "Verif.Ids.C38_ids_distinct_small",
    "Verif.Runtime.C38_block_size",
    "Verif.Payments.Kreivo.C38_kreivo_blocks",
    "Verif.Payments.Kreivo.C38_kreivo_ids"
   ],
   "note": "Full. The id keeps 16 bits of the extrinsic index; blocks hold at most 28,000 transactions besides inherents, so different extrinsics never share an index modulo 2^16 (C38_block_size, C38_kreivo_blocks)."
  },
  {
   "property": "C39",
   "status": "proved",
   "theorems": [
    "Verif.Ids.C39_provenance_readable",
    "Verif.Ids.C39_ordered_by_block"
   ],
   "note": "Full, index modulo 2^16 as in C38."
  },
  {
   "property": "C40",
   "status": "proved",
   "theorems": [
    "Verif.Communities.C40_duplicate_refused",
    "Verif.Communities.C40_duplicate_create_refused",
    "Verif.Communities.C40_never_unregistered",
    "Verif.Communities.C40_calls_keep_state",
    "Verif.Communities.C40_registered_once"
   ],
   "note": "Full: at most one registration, registration permanent, second one refused."
  },
  {
   "property": "C41",
   "status": "proved",
   "theorems": [
    "Verif.Communities.C41_one_admin"
   ],
   "note": "Full."
  },
  {
   "property": "C42",
   "status": "partial",
   "theorems": [
    "Verif.Communities.C42_isolated_partial",
    "Verif.Communities.C42_exact",
    "Verif.Communities.C42_isolated_fails"
   ],
   "note": "Naming another community's admin as one's own takes them over and leaves that community without an admin (_fails); everything else is untouched (_partial); the exact effect in every case is C42_exact."
  },
  {
   "property": "C43",
   "status": "proved",
   "theorems": [
    "Verif.Communities.C43_exact_deposit",
    "Verif.Communities.C43_unpaid_refused",
    "Verif.Governance.C43_kreivo"
   ],
   "note": "Full; the Kreivo deposit origin is included."
  },
  {
   "property": "C44",
   "status": "proved",
   "theorems": [
    "Verif.Communities.C44_only_own_members",
    "Verif.Communities.C44_strangers_refused",
    "Verif.Communities.C44_added"
   ],
   "note": "Full."
  },
  {
   "property": "C45",
   "status": "partial",
   "theorems": [
    "Verif.Communities.C45_needs_some_authority_partial",
    "Verif.Communities.C45_no_other_call",
    "Verif.Communities.C45_own_admin_fails"
   ],
   "note": "The code lets the authority of one community set another community's method (_fails); some authority is always needed, and no other call changes a method (_partial)."
  },
  {
   "property": "C46",
   "status": "partial",
   "theorems": [
    "Verif.Communities.C46_released_partial",
    "Verif.Communities.C46_named_member_fails"
   ],
   "note": "The membership removed need not belong to the named account (_fails); what is removed is proved (_partial)."
  },
  {
   "property": "C47",
   "status": "partial",
   "theorems": [
    "Verif.Communities.C47_promote",
    "Verif.Communities.C47_demote_partial",
    "Verif.Communities.C47_demote_event_fails"
   ],
   "note": "Ranks move by exactly one, saturating; the demotion event carries the old rank (_fails)."
  },
  {
   "property": "C48",
   "status": "proved",
   "theorems": [
    "Verif.Communities.C48_conditions",
    "Verif.Communities.C48_sufficient"
   ],
   "note": "Full: necessary and sufficient conditions."
  },
  {
   "property": "C49",
   "status": "proved",
   "theorems": [
    "Verif.Communities.C49_one_vote",
    "Verif.Communities.C49_vote_replaces",
    "Verif.Communities.C49_revote_tally"
   ],
   "note": "Full."
  },
  {
   "property": "C50",
   "status": "partial",
   "theorems": [
    "Verif.Communities.C50_plain_partial",
    "Verif.Communities.C50_tally_is_sum_partial",
    "Verif.Communities.C50_rank_change_fails",
    "Verif.Communities.C50_saturation_fails"
   ],
   "note": "False when ranks change or the tally saturates during a poll (_fails); proved for all other histories. For communities that do not decide by rank it is proved whatever else happens, while the sum fits (C50_plain_partial)."
  },
  {
   "property": "C51",
   "status": "partial",
   "theorems": [
    "Verif.Communities.C51_undo_partial",
    "Verif.Communities.C51_saturation_fails",
    "Verif.Communities.C51_shared_lock_fails"
   ],
   "note": "False under saturation and for locks shared by two memberships (_fails); proved otherwise."
  },
  {
   "property": "C52",
   "status": "partial",
   "theorems": [
    "Verif.Communities.C52_frozen_covers",
    "Verif.Communities.C52_after_removal",
    "Verif.Governance.C52_own_freezer_partial",
    "Verif.Governance.C52_freezer_partial",
    "Verif.Governance.C52_freezer_fails"
   ],
   "note": "C52_frozen_covers: all reachable states of the communities pallet, while nobody else changes what is frozen. With the assets pallet beside, an account that is given up takes the freeze along while its locks stand (C52_freezer_fails); proved for histories without that (C52_freezer_partial). For one account it is proved whatever others do (C52_own_freezer_partial)."
  },
  {
   "property": "C53",
   "status": "partial",
   "theorems": [
    "Verif.Communities.C53_backed_partial",
    "Verif.Communities.C53_backed_fails",
    "Verif.Communities.C53_own_votes_partial",
    "Verif.Communities.C53_own_locks_partial"
   ],
   "note": "Proved for histories in which no account votes with two memberships in one poll, and for a single account that does not, whatever the others do (C53_own_votes_partial, C53_own_locks_partial); otherwise witnessed (_fails)."
  },
  {
   "property": "C54",
   "status": "proved",
   "theorems": [
    "Verif.Communities.C54_not_before",
    "Verif.Communities.C54_needs_lock",
    "Verif.Communities.C54_afterwards"
   ],
   "note": "Full for voters who have what is frozen for their votes; C216 says when that is so with assets, and C215 what fees need."
  },
  {
   "property": "C55",
   "status": "proved",
   "theorems": [
    "Verif.Communities.C55_within_balance"
   ],
   "note": "Full."
  },
  {
   "property": "C56",
   "status": "partial",
   "theorems": [
    "Verif.Communities.C56_approval_exact_partial",
    "Verif.Communities.C56_approval_near_partial",
    "Verif.Communities.C56_support_near_partial",
    "Verif.Communities.C56_support_exact_partial",
    "Verif.Communities.C56_maximum",
    "Verif.Communities.C56_range",
    "Verif.Communities.C56_no_ayes",
    "Verif.Communities.C56_wrapped_sum_fails",
    "Verif.Communities.C56_empty_electorate_fails"
   ],
   "note": "The 32 bit sum wraps and an empty electorate counts as full support (_fails); exact fractions proved up to 10^9, and within two billionths for every total that fits 32 bits."
  },
  {
   "property": "C57",
   "status": "partial",
   "theorems": [
    "Verif.Communities.C57_monotone_partial",
    "Verif.Communities.C57_nearly_monotone_partial",
    "Verif.Communities.C57_aye_lowers_fails",
    "Verif.Communities.C57_nay_raises_fails"
   ],
   "note": "Rounding (by up to two billionths) and wrap-around break monotonicity (_fails); proved exactly for totals up to 10^9, and up to two billionths for every total that fits 32 bits."
  },
  {
   "property": "C58",
   "status": "partial",
   "theorems": [
    "Verif.Communities.C58_blocked_partial",
    "Verif.Communities.C58_blocked_fails",
    "Verif.Communities.C58_unregistered_fails"
   ],
   "note": "On Kreivo the plain signed account of a blocked or unregistered community is still an authority (_fails); its own origin and admin are refused (_partial)."
  },
  {
   "property": "C59",
   "status": "partial",
   "theorems": [
    "Verif.Communities.C59_authority_partial",
    "Verif.Communities.C59_kreivo_accounts_partial",
    "Verif.Communities.C59_own_community_fails",
    "Verif.Communities.C59_subset_fails"
   ],
   "note": "The treasury and other plain pallet accounts act as community 0, and a subset has the whole authority (_fails); exact characterisation proved."
  },
  {
   "property": "C60",
   "status": "proved",
   "theorems": [
    "Verif.Accounts.C60_reversible",
    "Verif.Accounts.C60_injective",
    "Verif.Accounts.C60_only_community_accounts"
   ],
   "note": "Full."
  },
  {
   "property": "C61",
   "status": "proved",
   "theorems": [
    "Verif.Accounts.C61_named",
    "Verif.Accounts.C61_not_other_pallet",
    "Verif.Accounts.C61_not_system_account",
    "Verif.Accounts.C61_not_sovereign"
   ],
   "note": "Full for pallet accounts, sub-accounts, parent and sibling sovereign accounts; hash-derived accounts are outside the model."
  },
  {
   "property": "C62",
   "status": "proved",
   "theorems": [
    "Verif.Communities.C62_signed_by_own_community",
    "Verif.Communities.C62_failure_returned",
    "Verif.Communities.C62_leaf_signer",
    "Verif.Communities.C62_nested"
   ],
   "note": "Full, including arbitrarily nested dispatches."
  },
  {
   "property": "C63",
   "status": "proved",
   "theorems": [
    "Verif.Communities.C63_adds_exactly",
    "Verif.Communities.C63_never_decreases"
   ],
   "note": "Full for reachable tallies."
  },
  {
   "property": "C64",
   "status": "partial",
   "theorems": [
    "Verif.Governance.C64_mints_exactly",
    "Verif.Governance.C64_refused",
    "Verif.Governance.C64_kreivo_origin",
    "Verif.Governance.C64_goes_through",
    "Verif.Governance.C64_reports_partial",
    "Verif.Governance.C64_reports_fails"
   ],
   "note": "Exactly the consecutive ids are minted at the price, to the treasury, up to 1024; the reported number is wrong when the ids run out at the largest one (_fails)."
  },
  {
   "property": "C65",
   "status": "proved",
   "theorems": [
    "Verif.Governance.C65_success",
    "Verif.Governance.C65_all_or_nothing",
    "Verif.Governance.C65_no_panic",
    "Verif.Governance.C65_complete"
   ],
   "note": "Full: success leaves everything registered, failure leaves nothing."
  },
  {
   "property": "C66",
   "status": "proved",
   "theorems": [
    "Verif.Governance.C66_thresholds",
    "Verif.Governance.C66_majority",
    "Verif.Governance.C66_majority_large",
    "Verif.Governance.C66_default_track"
   ],
   "note": "Full, on the threshold curve of referenda as modelled in Governance/Curve.lean."
  },
  {
   "property": "C67",
   "status": "proved",
   "theorems": [
    "Verif.Xcm.C67_id_location_id",
    "Verif.Xcm.C67_location_id_location",
    "Verif.Xcm.C67_numbers"
   ],
   "note": "Full, both directions."
  },
  {
   "property": "C68",
   "status": "proved",
   "theorems": [
    "Verif.Xcm.C68_distinct_locations_distinct_ids",
    "Verif.Xcm.C68_distinct_ids_distinct_locations"
   ],
   "note": "Full."
  },
  {
   "property": "C69",
   "status": "partial",
   "theorems": [
    "Verif.Xcm.C69_panics_iff_partial",
    "Verif.Xcm.C69_foreign_never_panics_partial",
    "Verif.Xcm.C69_large_local_index_fails"
   ],
   "note": "False of the code: a general index above 2^32 - 1 under the local assets pallet panics (_fails); the exact panic set is proved."
  },
  {
   "property": "C70",
   "status": "partial",
   "theorems": [
    "Verif.Xcm.C70_accepted_iff",
    "Verif.Xcm.C70_only_own_reserve_partial",
    "Verif.Xcm.C70_own_reserve_accepted",
    "Verif.Xcm.C70_any_origin_mints_asset_hub_assets_fails"
   ],
   "note": "False of the code: any origin is accepted for assets located under Asset Hub (_fails); the exact accepted set is proved."
  },
  {
   "property": "C71",
   "status": "partial",
   "theorems": [
    "Verif.Accounts.C71_distinct_senders_partial",
    "Verif.Accounts.C71_large_indices_collide_fails",
    "Verif.Accounts.C71_who_has_an_account"
   ],
   "note": "Indices of 65536 and more saturate onto community 65535 (_fails); proved below that."
  },
  {
   "property": "C72",
   "status": "partial",
   "theorems": [
    "Verif.Accounts.C72_own_community_partial",
    "Verif.Accounts.C72_index_saturates_fails"
   ],
   "note": "Same saturation (_fails); proved for indices below 65536."
  },
  {
   "property": "C73",
   "status": "partial",
   "theorems": [
    "Verif.Accounts.C73_roundtrip_partial",
    "Verif.Accounts.C73_refused_iff",
    "Verif.Accounts.C73_same_community",
    "Verif.Accounts.C73_member_is_lost_fails"
   ],
   "note": "The member subset loses its membership id (_fails); proved for the others, with the refused set exact."
  },
  {
   "property": "C74",
   "status": "partial",
   "theorems": [
    "Verif.Accounts.C74_signed_speaks_partial",
    "Verif.Accounts.C74_senders",
    "Verif.Accounts.C74_own_account",
    "Verif.Accounts.C74_treasury_speaks_fails",
    "Verif.Accounts.C74_executes_as_itself",
    "Verif.Accounts.C74_other_origins",
    "Verif.Xcm.C74_number_kept"
   ],
   "note": "Every plain pallet account speaks as community 0, e.g. the treasury (_fails); the exact set of senders is proved."
  },
  {
   "property": "C75",
   "status": "proved",
   "theorems": [
    "Verif.Runtime.C75_superset",
    "Verif.Runtime.C75_reflexive",
    "Verif.Runtime.C75_transitive",
    "Verif.Runtime.C75_top",
    "Verif.Runtime.C75_antisymmetric",
    "Verif.Runtime.C75_complete"
   ],
   "note": "Full; the converse (a type that allows everything another does is declared a superset) is proved or refuted type by type in C75_complete."
  },
  {
   "property": "C76",
   "status": "partial",
   "theorems": [
    "Verif.Runtime.C76_fails",
    "Verif.Runtime.C76_filter_partial",
    "Verif.Runtime.C76_nested_partial"
   ],
   "note": "NonTransfer lets payments through, which empties an account in two calls (_fails); native, asset and other transfer calls are refused at any nesting depth (_partial)."
  },
  {
   "property": "C77",
   "status": "proved",
   "theorems": [
    "Verif.Runtime.C77_area",
    "Verif.Runtime.C77_disjoint",
    "Verif.Runtime.C77_no_transfers",
    "Verif.Runtime.C77_nested"
   ],
   "note": "Full, also for nested calls."
  },
  {
   "property": "C78",
   "status": "proved",
   "theorems": [
    "Verif.Runtime.C78_only_owner_or_root",
    "Verif.Runtime.C78_reflexive",
    "Verif.Runtime.C78_equal",
    "Verif.Runtime.C78_greater",
    "Verif.Runtime.C78_antisymmetric"
   ],
   "note": "Full."
  },
  {
   "property": "C79",
   "status": "proved",
   "theorems": [
    "Verif.Runtime.C79_exported",
    "Verif.Runtime.C79_not_applied"
   ],
   "note": "Full; the filter is only exported, Kreivo uses no base call filter."
  },
  {
   "property": "C80",
   "status": "partial",
   "theorems": [
    "Verif.Governance.C80_fresh_fails",
    "Verif.Governance.C80_fresh_partial",
    "Verif.Governance.C80_past_partial",
    "Verif.Governance.C80_accepts_partial",
    "Verif.Governance.C80_window_partial"
   ],
   "note": "A context in the future passes with the zero hash, for ever (_fails); for past blocks exactly the last three hashes pass (_partial)."
  },
  {
   "property": "C81",
   "status": "proved",
   "theorems": [
    "Verif.Accounts.C81_lookup",
    "Verif.Accounts.C81_index_unambiguous"
   ],
   "note": "Full."
  },
  {
   "property": "C82",
   "status": "proved",
   "theorems": [
    "Verif.Governance.C82_ids",
    "Verif.Governance.C82_track_for",
    "Verif.Governance.C82_injective",
    "Verif.Governance.C82_names",
    "Verif.Governance.C82_submit",
    "Verif.Governance.C82_cancel_kill"
   ],
   "note": "Full."
  },
  {
   "property": "C83",
   "status": "proved",
   "theorems": [
    "Verif.Governance.C83_submit",
    "Verif.Governance.C83_members_can",
    "Verif.Governance.C83_update",
    "Verif.Governance.C83_ensure_member"
   ],
   "note": "Full."
  },
  {
   "property": "C84",
   "status": "proved",
   "theorems": [
    "Verif.Runtime.C84_monotone",
    "Verif.Runtime.C84_maximum",
    "Verif.Runtime.C84_free_only_negligible",
    "Verif.Runtime.C84_base_extrinsic",
    "Verif.Runtime.C84_proof_price",
    "Verif.Runtime.C84_no_saturation",
    "Verif.Runtime.C84_length"
   ],
   "note": "Full, for both feature sets; the base weight is a parameter in its asserted range."
  },
  {
   "property": "C85",
   "status": "proved",
   "theorems": [
    "Verif.Runtime.C85_contracts",
    "Verif.Runtime.C85_transfer_passes"
   ],
   "note": "Full, also for nested calls."
  },
  {
   "property": "C86",
   "status": "proved",
   "theorems": [
    "Verif.Xcm.C86_unsupported",
    "Verif.Xcm.C86_fits_no_limit",
    "Verif.Xcm.C86_supported",
    "Verif.Xcm.C86_at_most_100",
    "Verif.Xcm.C86_grows",
    "Verif.Xcm.C86_linear",
    "Verif.Xcm.C86_filter_grows",
    "Verif.Xcm.C86_filter_cap"
   ],
   "note": "Full; the unsupported instructions are listed in the specification, at any nesting depth of handlers and appendices."
  },
  {
   "property": "C87",
   "status": "partial",
   "theorems": [
    "Verif.Communities.C87_freeze_exact_partial",
    "Verif.Communities.C87_freeze_exact_fails",
    "Verif.Communities.C87_own_freeze_partial"
   ],
   "note": "Proved for histories in which no account votes with two memberships in one poll, and for a single account that does not, whatever the others do (C87_own_freeze_partial); otherwise a freeze can stay for ever (_fails)."
  },
  {
   "property": "C88",
   "status": "proved",
   "theorems": [
    "Verif.Runtime.C88_grants",
    "Verif.Runtime.C88_who",
    "Verif.Runtime.C88_declared"
   ],
   "note": "Full, in terms of the calls covered (C88_grants) and of the declared order (C88_declared)."
  },
  {
   "property": "C89",
   "status": "partial",
   "theorems": [
    "Verif.Runtime.C89_history_partial",
    "Verif.Runtime.C89_proxies_partial",
    "Verif.Runtime.C89_nesting_fails",
    "Verif.Runtime.C89_nesting_partial"
   ],
   "note": "A round trip through two mutual Any proxies escapes the type (_fails); without proxy calls inside nothing escapes (_partial)."
  },
  {
   "property": "C90",
   "status": "proved",
   "theorems": [
    "Verif.Governance.C90_floors",
    "Verif.Governance.C90_start",
    "Verif.Governance.C90_weaker"
   ],
   "note": "Full."
  },
  {
   "property": "C91",
   "status": "partial",
   "theorems": [
    "Verif.Xcm.C91_deposit_fails",
    "Verif.Xcm.C91_deposit_cap_fails",
    "Verif.Xcm.C91_claim_fails",
    "Verif.Xcm.C91_covers_partial",
    "Verif.Xcm.C91_benchmark_partial",
    "Verif.Xcm.C91_sum_partial"
   ],
   "note": "deposit_asset is charged no proof size and at most a millisecond, and claim_asset one asset only (_fails); every other asset instruction covers its benchmark and the message weighs the exact sum (_partial)."
  },
  {
   "property": "C92",
   "status": "proved",
   "theorems": [
    "Verif.Xcm.C92_pays_or_relay",
    "Verif.Xcm.C92_parachains_pay",
    "Verif.Xcm.C92_weightless"
   ],
   "note": "Full, for every set of instructions the paid barrier may pass over."
  },
  {
   "property": "C93",
   "status": "proved",
   "theorems": [
    "Verif.Xcm.C93_never_root",
    "Verif.Xcm.C93_parachain",
    "Verif.Xcm.C93_inside_parachain",
    "Verif.Xcm.C93_relay_account",
    "Verif.Xcm.C93_local_account",
    "Verif.Xcm.C93_cleared"
   ],
   "note": "Full; other reasons for instructions to fail are an arbitrary oracle."
  },
  {
   "property": "C94",
   "status": "partial",
   "theorems": [
    "Verif.Payments.C94_resolvable_partial",
    "Verif.Payments.C94_needed",
    "Verif.Payments.Kreivo.C94_stuck_fails"
   ],
   "note": "A beneficiary who spends their free balance during the dispute makes a split for the sender impossible (_fails); resolvable whenever both parties keep what fees and shares need, and that need is proved necessary."
  },
  {
   "property": "C95",
   "status": "proved",
   "theorems": [
    "Verif.Payments.C95_one_event",
    "Verif.Payments.C95_history"
   ],
   "note": "Full."
  },
  {
   "property": "C96",
   "status": "proved",
   "theorems": [
    "Verif.Payments.Kreivo.C96_only_root",
    "Verif.Payments.Kreivo.C96_resolution_exact",
    "Verif.Payments.Kreivo.C96_resolution_rests"
   ],
   "note": "Full; C96_resolution_rests includes rests below the minimum that go along with a transfer or are burned."
  },
  {
   "property": "C97",
   "status": "partial",
   "theorems": [
    "Verif.Payments.Kreivo.C97_one_day_partial",
    "Verif.Payments.Kreivo.C97_two_days_fails"
   ],
   "note": "The window is 14400 blocks, one day (_fails); a window of one day, less the 18 seconds of C169, is proved for every history and chain of blocks."
  },
  {
   "property": "C98",
   "status": "proved",
   "theorems": [
    "Verif.Accounts.C98_upload",
    "Verif.Accounts.C98_instantiate",
    "Verif.Accounts.C98_instantiate_with_code",
    "Verif.Accounts.C98_no_signer"
   ],
   "note": "Full."
  },
  {
   "property": "C99",
   "status": "proved",
   "theorems": [
    "Verif.Accounts.C99_who_pays",
    "Verif.Accounts.C99_own_deposit",
    "Verif.Accounts.C99_deposit_positive"
   ],
   "note": "Full."
  },
  {
   "property": "C100",
   "status": "partial",
   "theorems": [
    "Verif.Accounts.C100_own_origins_partial",
    "Verif.Accounts.C100_xcm_partial",
    "Verif.Accounts.C100_relay_treasury_fails"
   ],
   "note": "The relay chain account with the bytes of the treasury, its own treasury, acts as Kreivo's (_fails); no other origin, sender or message does (_partial)."
  },
  {
   "property": "C101",
   "status": "partial",
   "theorems": [
    "Verif.Runtime.C101_normal_share",
    "Verif.Runtime.C101_operational_room",
    "Verif.Runtime.C101_room_partial",
    "Verif.Runtime.C101_hooks_fails"
   ],
   "note": "Scheduler and message queue may take 115% of a block and then no normal transaction fits (_fails); the shares of each class are proved over all blocks, and full room while hooks stay within a quarter (_partial)."
  },
  {
   "property": "C102",
   "status": "proved",
   "theorems": [
    "Verif.Runtime.C102_exact",
    "Verif.Runtime.C102_linear",
    "Verif.Runtime.C102_additive",
    "Verif.Runtime.C102_monotone"
   ],
   "note": "Full."
  },
  {
   "property": "C103",
   "status": "proved",
   "theorems": [
    "Verif.Xcm.C103_exact",
    "Verif.Xcm.C103_once"
   ],
   "note": "Full; the order of the answer is not modelled."
  },
  {
   "property": "C104",
   "status": "proved",
   "theorems": [
    "Verif.Xcm.C104_who",
    "Verif.Xcm.C104_messages"
   ],
   "note": "Full."
  },
  {
   "property": "C105",
   "status": "partial",
   "theorems": [
    "Verif.Xcm.C105_conservation",
    "Verif.Xcm.C105_only_native_minted",
    "Verif.Xcm.C105_who_creates",
    "Verif.Xcm.C105_no_creation_partial",
    "Verif.Xcm.C105_native_partial",
    "Verif.Xcm.C105_local_assets",
    "Verif.Xcm.C105_sibling_mints_fails",
    "Verif.Xcm.C105_native_once_partial",
    "Verif.Xcm.C105_trader_mints_fails"
   ],
   "note": "Conservation is proved in full over all messages; that only the own reserve of an asset creates it is false, any sibling parachain mints assets of Asset Hub (_fails); assets for which no sender is an accepted reserve are never created (_partial), in particular local assets, and the native token without the relay chain and without refunds beyond what was paid, which the trader of Kreivo does give (_fails)."
  },
  {
   "property": "C106",
   "status": "proved",
   "theorems": [
    "Verif.Xcm.C106_only_own_accounts",
    "Verif.Xcm.C106_parachain",
    "Verif.Xcm.C106_inside_parachain",
    "Verif.Xcm.C106_relay_account",
    "Verif.Xcm.C106_local_account",
    "Verif.Xcm.C106_relay_owns_all",
    "Verif.Xcm.C106_parachains_only_own"
   ],
   "note": "Full."
  },
  {
   "property": "C107",
   "status": "partial",
   "theorems": [
    "Verif.Xcm.C107_never_stops_partial",
    "Verif.Xcm.C107_which_ids",
    "Verif.Xcm.C107_any_parachain_stops_the_chain_fails"
   ],
   "note": "A message of any parachain that withdraws a local asset with an index beyond 32 bits panics, whatever the state (_fails); messages that neither withdraw nor transfer such assets never do (_partial)."
  },
  {
   "property": "C108",
   "status": "proved",
   "theorems": [
    "Verif.Xcm.C108_only_own_traps",
    "Verif.Xcm.C108_claimable",
    "Verif.Xcm.C108_leftovers"
   ],
   "note": "Full."
  },
  {
   "property": "C109",
   "status": "partial",
   "theorems": [
    "Verif.Payments.Kreivo.C109_found_by_id_partial",
    "Verif.Payments.Kreivo.C109_one_payment_per_id_partial",
    "Verif.Payments.Kreivo.C109_scheduler_partial",
    "Verif.Payments.Kreivo.C109_accept_pays_requester_partial",
    "Verif.Payments.Kreivo.C109_enacted_together_fails"
   ],
   "note": "False when one extrinsic or one block's hooks create two payments to beneficiaries with the same first two bytes, for example payments of two communities enacted in one block (_fails); proved over all other histories of blocks and extrinsics (_partial)."
  },
  {
   "property": "C110",
   "status": "proved",
   "theorems": [
    "Verif.Governance.C110_vote",
    "Verif.Governance.C110_members_can",
    "Verif.Governance.C110_tally",
    "Verif.Governance.C110_ranks_by_root"
   ],
   "note": "Full, for at most 65537 voters on one referendum (the 32-bit counters saturate beyond)."
  },
  {
   "property": "C111",
   "status": "proved",
   "theorems": [
    "Verif.Governance.C111_root",
    "Verif.Governance.C111_custom",
    "Verif.Governance.C111_what_was_approved",
    "Verif.Governance.C111_ranks",
    "Verif.Governance.C111_approved",
    "Verif.Governance.C111_majority"
   ],
   "note": "Full; beyond 10^9 of weight the share is exact up to the rounding of the fractions, a weight of 42 among billions."
  },
  {
   "property": "C112",
   "status": "partial",
   "theorems": [
    "Verif.Governance.C112_no_members_fails",
    "Verif.Governance.C112_unanimous_partial",
    "Verif.Governance.C112_can_act_partial"
   ],
   "note": "False for a chain that starts without ranked members, as the local chain specification does (_fails); with one, unanimous referenda are approved (_partial)."
  },
  {
   "property": "C113",
   "status": "partial",
   "theorems": [
    "Verif.Governance.C113_collective_partial",
    "Verif.Governance.C113_community_partial",
    "Verif.Governance.C113_collective_exactly",
    "Verif.Governance.C113_community_exactly",
    "Verif.Governance.C113_kept",
    "Verif.Governance.C113_lost_fails"
   ],
   "note": "False when the two kinds of referenda have approved calls with the same number waiting at once (_fails); scheduled as asked otherwise, and kept until due (_partial, C113_kept)."
  },
  {
   "property": "C114",
   "status": "proved",
   "theorems": [
    "Verif.Governance.C114_own_referendum",
    "Verif.Governance.C114_approved",
    "Verif.Governance.C114_member_voted"
   ],
   "note": "Full."
  },
  {
   "property": "C115",
   "status": "partial",
   "theorems": [
    "Verif.Governance.C115_one_vote_fails",
    "Verif.Governance.C115_quorum_partial"
   ],
   "note": "False: one aye passes at the end of the decision period in a community of any size (_fails); the support needed earlier is proved (_partial)."
  },
  {
   "property": "C116",
   "status": "partial",
   "theorems": [
    "Verif.Communities.C116_charged_partial",
    "Verif.Communities.C116_charged_fails"
   ],
   "note": "False: the reads of unlock are unbounded for a constant charge (_fails); it is charged enough exactly with at most two locks (_partial). Reads are counted by hand in the model."
  },
  {
   "property": "C117",
   "status": "proved",
   "theorems": [
    "Verif.Runtime.C117_communities",
    "Verif.Runtime.C117_wrapping",
    "Verif.Runtime.C117_manager",
    "Verif.Runtime.C117_limit_needed",
    "Verif.Runtime.C117_payments",
    "Verif.Runtime.C117_not_free"
   ],
   "note": "Full."
  },
  {
   "property": "C118",
   "status": "partial",
   "theorems": [
    "Verif.Runtime.C118_once_partial",
    "Verif.Runtime.C118_other_once_partial",
    "Verif.Runtime.C118_in_order_partial",
    "Verif.Runtime.C118_mortal_partial",
    "Verif.Runtime.C118_authenticate_fails",
    "Verif.Runtime.C118_removed_fails"
   ],
   "note": "False: an authenticate transaction is never checked for its nonce and, with the zero challenge of C80, can be included again for ever (_fails); an immortal transaction of a removed account too (_fails). For all others, and for every mortal one after its era, proved over all histories (_partial). pallet_pass and the extensions are outside /repo."
  },
  {
   "property": "C119",
   "status": "proved",
   "theorems": [
    "Verif.Runtime.C119_monotone",
    "Verif.Runtime.C119_taken",
    "Verif.Runtime.C119_settled",
    "Verif.Runtime.C119_payer_gone",
    "Verif.Runtime.C119_asset_taken",
    "Verif.Runtime.C119_asset_settled",
    "Verif.Runtime.C119_asset_no_more",
    "Verif.Runtime.C119_feeless",
    "Verif.Runtime.C119_rate",
    "Verif.Runtime.C119_pipeline",
    "Verif.Runtime.C119_never_more",
    "Verif.Runtime.C119_pass_pays",
    "Verif.Runtime.C119_signer_pays"
   ],
   "note": "Full; the charging pallets are outside /repo, the configuration decides payer, currency and receivers."
  },
  {
   "property": "C120",
   "status": "partial",
   "theorems": [
    "Verif.Communities.C120_membership_partial",
    "Verif.Communities.C120_currency_partial",
    "Verif.Communities.C120_asset_partial",
    "Verif.Communities.C120_rank_unanimous_fails",
    "Verif.Communities.C120_rank_single_fails",
    "Verif.Communities.C120_native_fails"
   ],
   "note": "False by rank and by native currency (_fails, reachable states); holds by membership and while the issuance fits (_partial)."
  },
  {
   "property": "C121",
   "status": "partial",
   "theorems": [
    "Verif.Xcm.C121_which",
    "Verif.Xcm.C121_price",
    "Verif.Xcm.C121_surplus",
    "Verif.Xcm.C121_transact",
    "Verif.Xcm.C121_kept",
    "Verif.Xcm.C121_assets_partial",
    "Verif.Xcm.C121_once_partial",
    "Verif.Xcm.C121_covers_partial",
    "Verif.Xcm.C121_unpaid_fails",
    "Verif.Xcm.C121_two_parts_fails"
   ],
   "note": "Price, surplus and takings hold in full. That a refund is at most what was paid is false: time and proof size refunded apart add up to more than the fee, which is their maximum (_fails, for every sane price list; the message passes the barrier). Proved for messages paying once without explicit refund, or in other assets (_partial). Traders and executor are outside /repo."
  },
  {
   "property": "C122",
   "status": "partial",
   "theorems": [
    "Verif.Communities.C122_who_creates_partial",
    "Verif.Communities.C122_existing",
    "Verif.Communities.C122_only_root_fails"
   ],
   "note": "That only root creates assets, as the comment in the configuration says, is false: set_decision_method creates any unused asset for anyone with authority over some community (_fails). Proved: exactly who creates (_partial), and that existing assets change only by root or owner (in full). pallet_assets is outside /repo."
  },
  {
   "property": "C123",
   "status": "partial",
   "theorems": [
    "Verif.Communities.C123_owner_fails",
    "Verif.Communities.C123_only_issuer",
    "Verif.Communities.C123_nobody_votes_fails",
    "Verif.Communities.C123_zero_mints_fails"
   ],
   "note": "False: the account of community 0 gets all roles, so the asset is either unusable for ever or in the hands of community 0 (_fails, over all histories). That only the issuer issues is proved in full. pallet_assets is outside /repo."
  },
  {
   "property": "C124",
   "status": "partial",
   "theorems": [
    "Verif.Governance.C124_how_members_join_partial",
    "Verif.Governance.C124_how_members_leave",
    "Verif.Governance.C124_one_holder",
    "Verif.Governance.C124_priced_by_holder",
    "Verif.Governance.C124_locked_partial",
    "Verif.Governance.C124_approved_by_holder",
    "Verif.Governance.C124_offered_by_holder",
    "Verif.Governance.C124_new_holder_starts_afresh",
    "Verif.Governance.C124_can_freeze",
    "Verif.Governance.C124_stays_frozen",
    "Verif.Governance.C124_minting_opened_by_admin",
    "Verif.Governance.C124_can_lock",
    "Verif.Governance.C124_keeper",
    "Verif.Governance.C124_community_decides_fails"
   ],
   "note": "False that the community is asked: memberships are ordinary items, which members transfer and sell (_fails). Proved: exactly how members join (_partial) and leave, one holder per item, prices, approvals and offers made by holders only and void for the next holder, who changes the collection and its minting; and that freezing the collection or locking all items, which the community can do, leaves it to the community and root. pallet_nfts, which is outside /repo, is modelled with approvals, swaps, mint settings and pre-signed mints, without attributes."
  },
  {
   "property": "C125",
   "status": "partial",
   "theorems": [
    "Verif.Governance.C125_added_uses_one_partial",
    "Verif.Governance.C125_supply",
    "Verif.Governance.C125_buying_pays",
    "Verif.Governance.C125_swapping_pays",
    "Verif.Governance.C125_minting_pays",
    "Verif.Governance.C125_paid_for_fails"
   ],
   "note": "False: a community is admin of its own collection and mints memberships for nothing (_fails). Proved: add_member uses up a membership, where those come from, and what buying, swapping and minting pay."
  },
  {
   "property": "C126",
   "status": "partial",
   "theorems": [
    "Verif.Governance.C126_can_add_partial",
    "Verif.Governance.C126_burns_junk",
    "Verif.Governance.C126_memberships_left_fails"
   ],
   "note": "False: an item of another collection sent to the account of the community is picked first by add_member, which fails (_fails). In the model the order of memberships is that of a list; on chain it is that of hashed keys. Proved: it succeeds with only memberships to give out (_partial), and the community can burn the rest."
  },
  {
   "property": "C127",
   "status": "proved",
   "theorems": [
    "Verif.Governance.C127_collective_one",
    "Verif.Governance.C127_community_limit",
    "Verif.Governance.C127_collective_begins",
    "Verif.Governance.C127_community_begins",
    "Verif.Governance.C127_default"
   ],
   "note": "The order in which waiting referenda get their turn (a queue in pallet_referenda, outside /repo) is not modelled."
  },
  {
   "property": "C128",
   "status": "partial",
   "theorems": [
    "Verif.Governance.C128_collective_partial",
    "Verif.Governance.C128_community_partial",
    "Verif.Governance.C128_collective_fails",
    "Verif.Governance.C128_community_fails"
   ],
   "note": "False: the votes of expelled or removed members still decide (C128_collective_fails, C128_community_fails). Proved of accounts that do not leave or change rank, and of memberships that stay with their holder, whatever others do (_partial)."
  },
  {
   "property": "C129",
   "status": "partial",
   "theorems": [
    "Verif.Xcm.C129_through_own_reserve_partial",
    "Verif.Xcm.C129_asset_hub_assets_fails"
   ],
   "note": "False of the code for assets of Asset Hub sent anywhere but Asset Hub (C129_asset_hub_assets_fails); proved for all others (_partial)."
  },
  {
   "property": "C130",
   "status": "proved",
   "theorems": [
    "Verif.Xcm.C130_exact",
    "Verif.Xcm.C130_payer",
    "Verif.Xcm.C130_filtered",
    "Verif.Xcm.C130_limits"
   ],
   "note": "The hypothesis that the caller is not the destination chain itself is needed: then nothing moves."
  },
  {
   "property": "C131",
   "status": "proved",
   "theorems": [
    "Verif.Xcm.C131_short",
    "Verif.Xcm.C131_exactly",
    "Verif.Xcm.C131_same_meaning",
    "Verif.Xcm.C131_distinct",
    "Verif.Xcm.C131_has_a_name"
   ],
   "note": ""
  },
  {
   "property": "C132",
   "status": "partial",
   "theorems": [
    "Verif.Xcm.C132_never_stops_partial",
    "Verif.Xcm.C132_any_account_stops_the_chain_fails"
   ],
   "note": "False: any account can make the runtime panic (C132_any_account_stops_the_chain_fails); proved for all other assets (_partial)."
  },
  {
   "property": "C133",
   "status": "proved",
   "theorems": [
    "Verif.Xcm.C133_claim_exact",
    "Verif.Xcm.C133_claimable"
   ],
   "note": ""
  },
  {
   "property": "C134",
   "status": "proved",
   "theorems": [
    "Verif.Communities.C134_units_leave",
    "Verif.Communities.C134_transfer",
    "Verif.Communities.C134_transfer_succeeds",
    "Verif.Communities.C134_books",
    "Verif.Communities.C134_within_issuance"
   ],
   "note": ""
  },
  {
   "property": "C135",
   "status": "proved",
   "theorems": [
    "Verif.Governance.C135_promote",
    "Verif.Governance.C135_demote",
    "Verif.Governance.C135_expel",
    "Verif.Governance.C135_exchange",
    "Verif.Governance.C135_only_root",
    "Verif.Governance.C135_moves"
   ],
   "note": ""
  },
  {
   "property": "C136",
   "status": "partial",
   "theorems": [
    "Verif.Governance.C136_text",
    "Verif.Governance.C136_any_text",
    "Verif.Governance.C136_kept_partial",
    "Verif.Governance.C136_name_lost_fails"
   ],
   "note": "False when a track is given: the name is checked and dropped (C136_name_lost_fails)."
  },
  {
   "property": "C137",
   "status": "proved",
   "theorems": [
    "Verif.Governance.C137_not_at_once",
    "Verif.Governance.C137_time_to_vote",
    "Verif.Governance.C137_ends",
    "Verif.Governance.C137_times_out",
    "Verif.Governance.C137_community_time_to_vote",
    "Verif.Governance.C137_community_ends",
    "Verif.Governance.C137_community_times_out",
    "Verif.Governance.C137_deposit",
    "Verif.Governance.C137_community_deposit"
   ],
   "note": ""
  },
  {
   "property": "C138",
   "status": "proved",
   "theorems": [
    "Verif.Xcm.C138_admitted",
    "Verif.Xcm.C138_arrives",
    "Verif.Xcm.C138_unpaid",
    "Verif.Xcm.C138_undeliverable",
    "Verif.Xcm.C138_price_kusama",
    "Verif.Xcm.C138_undeliverable_topic",
    "Verif.Xcm.C138_back_kusama"
   ],
   "note": ""
  },
  {
   "property": "C139",
   "status": "proved",
   "theorems": [
    "Verif.Xcm.C139_withdraw_when",
    "Verif.Xcm.C139_withdraw",
    "Verif.Xcm.C139_transfer",
    "Verif.Xcm.C139_transfer_self",
    "Verif.Xcm.C139_deposit",
    "Verif.Xcm.C139_deposit_when",
    "Verif.Xcm.C139_deposit_all_of",
    "Verif.Xcm.C139_deposit_everything"
   ],
   "note": "Full. Deposits of everything, and of all of an asset, as well (C139_deposit_everything, C139_deposit_all_of)."
  },
  {
   "property": "C140",
   "status": "proved",
   "theorems": [
    "Verif.Governance.C140_who_asks",
    "Verif.Governance.C140_kept",
    "Verif.Governance.C140_submit",
    "Verif.Governance.C140_decision_deposits",
    "Verif.Governance.C140_place",
    "Verif.Governance.C140_decision_back",
    "Verif.Governance.C140_decision_stays",
    "Verif.Governance.C140_submission_back",
    "Verif.Governance.C140_rejected_stays",
    "Verif.Governance.C140_lost_only_by_kill"
   ],
   "note": ""
  },
  {
   "property": "C141",
   "status": "partial",
   "theorems": [
    "Verif.Runtime.C141_assets_fit",
    "Verif.Runtime.C141_proxy_fit",
    "Verif.Runtime.C141_carrying",
    "Verif.Runtime.C141_not_free",
    "Verif.Runtime.C141_charged_for_items_partial",
    "Verif.Runtime.C141_charged_for_items_fails"
   ],
   "note": "False of transfer_all (C141_charged_for_items_fails: its weight is a copy of block); proved for all other calls."
  },
  {
   "property": "C142",
   "status": "proved",
   "theorems": [
    "Verif.Runtime.C142_floor",
    "Verif.Runtime.C142_direction",
    "Verif.Runtime.C142_step",
    "Verif.Runtime.C142_history",
    "Verif.Runtime.C142_day",
    "Verif.Runtime.C142_quiet",
    "Verif.Runtime.C142_fee"
   ],
   "note": "For every multiplier and every list of blocks; fixed-point rounding included."
  },
  {
   "property": "C143",
   "status": "proved",
   "theorems": [
    "Verif.Runtime.C143_on_time",
    "Verif.Runtime.C143_refunds_fit",
    "Verif.Runtime.C143_delay",
    "Verif.Runtime.C143_kept",
    "Verif.Runtime.C143_once",
    "Verif.Runtime.C143_share",
    "Verif.Runtime.C143_crowding",
    "Verif.Runtime.C143_room",
    "Verif.Runtime.C143_late"
   ],
   "note": "The service loop is that of pallet_scheduler (trusted base); its own weights are parameters. C143_late shows that the delay of C143_delay does happen: refunds have the lowest priority."
  },
  {
   "property": "C144",
   "status": "proved",
   "theorems": [
    "Verif.Governance.C144_who",
    "Verif.Governance.C144_cancelled",
    "Verif.Governance.C144_killed",
    "Verif.Governance.C144_community",
    "Verif.Governance.C144_future"
   ],
   "note": "Root can still stop referenda of the collective by dispatching as the canceller or killer, which is why the histories name root as well."
  },
  {
   "property": "C145",
   "status": "proved",
   "theorems": [
    "Verif.Runtime.C145_refund_comes",
    "Verif.Runtime.C145_on_time",
    "Verif.Runtime.C145_only_when_due",
    "Verif.Runtime.C145_one_task",
    "Verif.Runtime.C145_kreivo"
   ],
   "note": "Assumes, as C19 does, that no other sender is given the id of this payment (see C22) and that the ledger does not refuse the refund; and that others do not take tasks of refunds away."
  },
  {
   "property": "C146",
   "status": "proved",
   "theorems": [
    "Verif.Runtime.C146_never_acts",
    "Verif.Runtime.C146_system_accounts",
    "Verif.Runtime.C146_community_acts"
   ],
   "note": "Full. That hashes (multisig, derivative, pure and pass accounts) miss these accounts is a hypothesis. Calls of root, such as dispatch_as, are not signed calls."
  },
  {
   "property": "C147",
   "status": "proved",
   "theorems": [
    "Verif.Runtime.Treasury.C147_keeps_all",
    "Verif.Runtime.Treasury.C147_no_spends",
    "Verif.Runtime.Treasury.C147_nothing_new",
    "Verif.Runtime.Treasury.C147_paid_once",
    "Verif.Runtime.Treasury.C147_approved",
    "Verif.Runtime.Treasury.C147_rejects",
    "Verif.Runtime.Treasury.C147_pays",
    "Verif.Runtime.Treasury.C147_forgets",
    "Verif.Runtime.Treasury.C147_takes_back",
    "Verif.Runtime.Treasury.C147_six_days"
   ],
   "note": "Full for the pallet itself; other ways of root to move the funds (force_transfer, dispatch_as, XCM as the relay chain) are C100."
  },
  {
   "property": "C148",
   "status": "proved",
   "theorems": [
    "Verif.Runtime.C148_own",
    "Verif.Runtime.C148_any_call",
    "Verif.Runtime.C148_nested_all"
   ],
   "note": "Full. That a dispatch succeeds is up to the call; the default call filter of frame_system allows everything (trusted base)."
  },
  {
   "property": "C149",
   "status": "proved",
   "theorems": [
    "Verif.Runtime.C149_kept",
    "Verif.Runtime.C149_leaves",
    "Verif.Runtime.C149_merge_covers",
    "Verif.Runtime.C149_vest_exact",
    "Verif.Runtime.C149_ends",
    "Verif.Runtime.C149_bounds",
    "Verif.Runtime.C149_same_funds"
   ],
   "note": "Full, under the semantics of pallet_vesting and pallet_balances in the trusted base. Grants from an account to itself move no money and are not counted. After root removes a schedule of an account, its grants count anew."
  },
  {
   "property": "C150",
   "status": "partial",
   "theorems": [
    "Verif.Runtime.C150_fees_fails",
    "Verif.Runtime.C150_lock_partial"
   ],
   "note": "False of the code: pallet_balances ignores the reasons of locks, so that fees cannot be paid from unvested funds (C150_fees_fails). Proved: exactly when transfers, fees, reserves and holds go through."
  },
  {
   "property": "C151",
   "status": "partial",
   "theorems": [
    "Verif.Runtime.C151_merge_fails",
    "Verif.Runtime.C151_merge_partial"
   ],
   "note": "False of the code: the rate of the merged schedule is rounded down (C151_merge_fails). Proved: it takes at most twice the time that was left."
  },
  {
   "property": "C152",
   "status": "partial",
   "theorems": [
    "Verif.Ids.C152_other_text_fails",
    "Verif.Ids.C152_own_text_partial",
    "Verif.Ids.C152_texts_partial",
    "Verif.Ids.C152_exactly_partial",
    "Verif.Ids.C152_few_partial",
    "Verif.Ids.C152_new_partial",
    "Verif.Ids.C152_js_partial"
   ],
   "note": "False of the code: ids made before block 2^24 have a second text (C152_other_text_fails). Proved: exactly which texts name an id, whatever its block: the base58 texts of its bytes with zeros at the end kept or left out (C152_texts_partial, C152_exactly_partial); from block 2^24, 2^16 and 2^8 on these are one, two and three texts, so from block 2^24 on only the own text names an id; the constructor gives malformed text an id that no payment after block 0 has."
  },
  {
   "property": "C153",
   "status": "proved",
   "theorems": [
    "Verif.Runtime.C153_communities",
    "Verif.Runtime.C153_payments",
    "Verif.Runtime.C153_shared"
   ],
   "note": "Full, under the encoding rules of parity-scale-codec in the trusted base. The encoding of runtime origins, used as a key, is a parameter."
  },
  {
   "property": "C154",
   "status": "proved",
   "theorems": [
    "Verif.Runtime.C154_maps",
    "Verif.Runtime.C154_apart",
    "Verif.Runtime.C154_names",
    "Verif.Runtime.C154_walk",
    "Verif.Runtime.C154_task"
   ],
   "note": "Full. That different maps are apart assumes that their seven names hash differently; that cancellations are apart assumes that blake2_256 tells the two texts apart."
  },
  {
   "property": "C155",
   "status": "proved",
   "theorems": [
    "Verif.Runtime.Multi.C155_signatories",
    "Verif.Runtime.Multi.C155_round",
    "Verif.Runtime.Multi.C155_price",
    "Verif.Runtime.Multi.C155_threshold",
    "Verif.Runtime.Multi.C155_deposits",
    "Verif.Runtime.Multi.C155_closed",
    "Verif.Runtime.Multi.C155_executes"
   ],
   "note": "Full, under the semantics of pallet_multisig in the trusted base; assumes that no other signatories and threshold hash to the same account."
  },
  {
   "property": "C156",
   "status": "proved",
   "theorems": [
    "Verif.Runtime.C156_parts",
    "Verif.Runtime.C156_now",
    "Verif.Runtime.C156_asset",
    "Verif.Runtime.C156_later",
    "Verif.Runtime.C156_free"
   ],
   "note": "Full, for calls that pay (Pays::Yes); the fee pallets are as described in the trusted base."
  },
  {
   "property": "C157",
   "status": "proved",
   "theorems": [
    "Verif.Runtime.Collators.C157_bonds",
    "Verif.Runtime.Collators.C157_own_call"
   ],
   "note": "Full, for the pallet as described in the trusted base."
  },
  {
   "property": "C158",
   "status": "proved",
   "theorems": [
    "Verif.Runtime.Collators.C158_changes",
    "Verif.Runtime.Collators.C158_registers",
    "Verif.Runtime.Collators.C158_leaves",
    "Verif.Runtime.Collators.C158_takes",
    "Verif.Runtime.Collators.C158_sorted",
    "Verif.Runtime.Collators.C158_count",
    "Verif.Runtime.Collators.C158_highest",
    "Verif.Runtime.Collators.C158_kept",
    "Verif.Runtime.Collators.C158_enters"
   ],
   "note": "Full, for the pallet as described in the trusted base."
  },
  {
   "property": "C159",
   "status": "partial",
   "theorems": [
    "Verif.Runtime.Collators.C159_none_fails",
    "Verif.Runtime.Collators.C159_undesired_fails",
    "Verif.Runtime.Collators.C159_eligible_partial",
    "Verif.Runtime.Collators.C159_chosen_partial"
   ],
   "note": "False of the code: with MinEligibleCollators = 1 set_invulnerables may name only accounts without session keys, which leaves nobody (C159_none_fails), and with no candidates desired (as at genesis) the last invulnerable can be removed although nobody is then chosen (C159_undesired_fails). Proved: all other steps keep somebody eligible; somebody is chosen exactly if there is an invulnerable, or a candidate while one is desired."
  },
  {
   "property": "C160",
   "status": "proved",
   "theorems": [
    "Verif.Runtime.C160_signed_for",
    "Verif.Runtime.C160_included",
    "Verif.Runtime.C160_other_chain",
    "Verif.Runtime.C160_other_version",
    "Verif.Runtime.C160_fork",
    "Verif.Runtime.C160_window"
   ],
   "note": "Full, for the extensions of frame_system as described in the trusted base; the signature itself is assumed to cover what the extensions add to it."
  },
  {
   "property": "C161",
   "status": "proved",
   "theorems": [
    "Verif.Runtime.ChainSpec.C161_live",
    "Verif.Runtime.ChainSpec.C161_local",
    "Verif.Runtime.ChainSpec.C161_file",
    "Verif.Runtime.ChainSpec.C161_unknown"
   ],
   "note": "Full. Without the feature paseo the embedded file is not in /repo, so that only the other build can be made from it."
  },
  {
   "property": "C162",
   "status": "proved",
   "theorems": [
    "Verif.Runtime.ChainSpec.C162_builds",
    "Verif.Runtime.ChainSpec.C162_start",
    "Verif.Runtime.ChainSpec.C162_local"
   ],
   "note": "Full, for the genesis of the pallets as described in the trusted base; that seeds give different accounts and keys is a hypothesis (sr25519)."
  },
  {
   "property": "C163",
   "status": "partial",
   "theorems": [
    "Verif.Runtime.Delegates.C163_exact_partial",
    "Verif.Runtime.Delegates.C163_back_partial",
    "Verif.Runtime.Delegates.C163_own_partial",
    "Verif.Runtime.Delegates.C163_kill_fails",
    "Verif.Runtime.Delegates.C163_stays_fails"
   ],
   "note": "False of the pallet: killing a pure account with more than one delegate (or a second time) gives the spawner back more than was taken for it, out of other reserves, and leaves funds of the pure account reserved; one that removes its proxies leaves the deposit of its spawner reserved for good. Proved for histories in which pure accounts are killed once and with one delegate, and for each account whose own pure accounts are, whatever others do (C163_own_partial)."
  },
  {
   "property": "C164",
   "status": "proved",
   "theorems": [
    "Verif.Runtime.Delegates.C164_named",
    "Verif.Runtime.Delegates.C164_list",
    "Verif.Runtime.Delegates.C164_announces",
    "Verif.Runtime.Delegates.C164_at_once",
    "Verif.Runtime.Delegates.C164_announced",
    "Verif.Runtime.Delegates.C164_once",
    "Verif.Runtime.Delegates.C164_stop"
   ],
   "note": "Full, for pallet_proxy as described in the trusted base. What the call may be is C75 to C77, C88, C89."
  },
  {
   "property": "C165",
   "status": "partial",
   "theorems": [
    "Verif.Runtime.Delegates.C165_fails",
    "Verif.Runtime.Delegates.C165_partial"
   ],
   "note": "False of the pallet: announcements made before, as a proxy of another type, count. Proved if nothing was announced for the account before."
  },
  {
   "property": "C166",
   "status": "proved",
   "theorems": [
    "Verif.Runtime.Preimages.C166_exact",
    "Verif.Runtime.Preimages.C166_only",
    "Verif.Runtime.Preimages.C166_back",
    "Verif.Runtime.Preimages.C166_free"
   ],
   "note": "Full, for pallet_preimage as described in the trusted base."
  },
  {
   "property": "C167",
   "status": "partial",
   "theorems": [
    "Verif.Runtime.Preimages.C167_partial",
    "Verif.Runtime.Preimages.C167_supply",
    "Verif.Runtime.Preimages.C167_fails",
    "Verif.Runtime.Preimages.C167_only"
   ],
   "note": "False: a referendum does not request the call, so whoever noted it can take it back before approval (getting the deposit), and the approved proposal is given up. Proved from the moment on when the call is scheduled and there; until it is due anybody can supply it without deposit."
  },
  {
   "property": "C168",
   "status": "proved",
   "theorems": [
    "Verif.Runtime.Clock.C168_forward",
    "Verif.Runtime.Clock.C168_relay",
    "Verif.Runtime.Clock.C168_two",
    "Verif.Runtime.Clock.C168_accepted"
   ],
   "note": "Full, for the pallets as described in the trusted base."
  },
  {
   "property": "C169",
   "status": "partial",
   "theorems": [
    "Verif.Runtime.Clock.C169_steady_partial",
    "Verif.Runtime.Clock.C169_half_partial",
    "Verif.Runtime.Clock.C169_fails"
   ],
   "note": "False by up to 18 seconds: up to two blocks fit a slot and times of blocks may be equal, so three blocks can pass within a millisecond (C169_fails). Proved: never 18 seconds or more, for any number of blocks, if the relay chain includes at most one block in each of its own; at least half of the time without that assumption."
  },
  {
   "property": "C170",
   "status": "proved",
   "theorems": [
    "Verif.Runtime.Sessions.C170_author",
    "Verif.Runtime.Sessions.C170_some"
   ],
   "note": "Full, for the pallets as described in the trusted base; the order of hooks is that of the runtime."
  },
  {
   "property": "C171",
   "status": "proved",
   "theorems": [
    "Verif.Runtime.Sessions.C171_term",
    "Verif.Runtime.Sessions.C171_first",
    "Verif.Runtime.Sessions.C171_nobody",
    "Verif.Runtime.Sessions.C171_turns"
   ],
   "note": "Full, for the pallets as described in the trusted base; the period is a parameter."
  },
  {
   "property": "C172",
   "status": "proved",
   "theorems": [
    "Verif.Xcm.Queue.C172_turns",
    "Verif.Xcm.Queue.C172_order",
    "Verif.Xcm.Queue.C172_all",
    "Verif.Xcm.Queue.C172_heavy",
    "Verif.Xcm.Queue.C172_forget",
    "Verif.Xcm.Queue.C172_paid"
   ],
   "note": "Full, for the queue as described in the trusted base."
  },
  {
   "property": "C173",
   "status": "partial",
   "theorems": [
    "Verif.Xcm.Queue.C173_prefix",
    "Verif.Xcm.Queue.C173_taken_partial",
    "Verif.Xcm.Queue.C173_long",
    "Verif.Xcm.Queue.C173_fails",
    "Verif.Xcm.Queue.C173_full_fails",
    "Verif.Xcm.Queue.C173_relay"
   ],
   "note": "False: messages longer than 65531 bytes do not fit a page of the queue (HeapSize 64 KiB) and are dropped with the rest of their page, though channels carry 102400 bytes and MaxPageSize was raised for them (C173_fails); so is what arrives while 48 pages wait (C173_full_fails). Proved: everything else is taken; from the relay chain exactly what is not longer than that."
  },
  {
   "property": "C174",
   "status": "proved",
   "theorems": [
    "Verif.Xcm.Queue.C174_turn",
    "Verif.Xcm.Queue.C174_ring"
   ],
   "note": "Full, for queues that are not paused and a service weight that covers the overhead of one message."
  },
  {
   "property": "C175",
   "status": "partial",
   "theorems": [
    "Verif.Xcm.Outbound.C175_route",
    "Verif.Xcm.Outbound.C175_distinct",
    "Verif.Xcm.Outbound.C175_free_partial",
    "Verif.Xcm.Outbound.C175_fails"
   ],
   "note": "False: the declared prices (PriceForSiblingParachainDelivery, PriceForParentDelivery) are used only in benchmarks; XcmRouter and the queue are configured without a price, so delivery is free (C175_fails). Proved: the routes, and that the price is nothing for all."
  },
  {
   "property": "C176",
   "status": "partial",
   "theorems": [
    "Verif.Xcm.Outbound.C176_order",
    "Verif.Xcm.Outbound.C176_up",
    "Verif.Xcm.Outbound.C176_up_accepted",
    "Verif.Xcm.Outbound.C176_channels",
    "Verif.Xcm.Outbound.C176_accepted",
    "Verif.Xcm.Outbound.C176_kept_partial",
    "Verif.Xcm.Outbound.C176_fails"
   ],
   "note": "False: pages waiting for a channel the relay chain reports closed, or with a smaller greatest message, are dropped (C176_fails; code of the pallet). Proved: order and once for all histories; nothing lost while the channel stays open with the same greatest message; nothing to the relay chain lost."
  },
  {
   "property": "C177",
   "status": "partial",
   "theorems": [
    "Verif.Xcm.Outbound.C177_turn_partial",
    "Verif.Xcm.Outbound.C177_fails"
   ],
   "note": "False: the queue hands a page over only if it is shorter than the room left, so a page of exactly the bytes a channel holds waits for ever with all behind it (C177_fails; code of the pallet; such channels are usual: 102400 bytes in all and per message). Proved: the turn within 128 blocks when the empty channel has room for a page and a byte more."
  },
  {
   "property": "C178",
   "status": "partial",
   "theorems": [
    "Verif.Xcm.Outbound.C178_stop_partial",
    "Verif.Xcm.Outbound.C178_fails",
    "Verif.Xcm.Outbound.C178_signal"
   ],
   "note": "False when 128 channels are in use as a chain asks to stop: the request is ignored and messages to it are handed over later (C178_fails; code of the pallet, with the limit of the runtime). Proved otherwise, and for signals."
  },
  {
   "property": "C179",
   "status": "proved",
   "theorems": [
    "Verif.Governance.C179_review_ends",
    "Verif.Governance.C179_root_calls",
    "Verif.Governance.C179_majority"
   ],
   "note": "Batches of several calls in one are not modelled."
  },
  {
   "property": "C180",
   "status": "partial",
   "theorems": [
    "Verif.Governance.C180_no_members_fails",
    "Verif.Governance.C180_can_settle_partial"
   ],
   "note": "False on a chain whose collective has no member of rank 1 or more, as the local chain specification makes it: what is in escrow for a payment under review then stays held for ever (C180_no_members_fails). Proved when the members agree and the parties can pay (C180_can_settle_partial; see C94 and C112)."
  },
  {
   "property": "C181",
   "status": "partial",
   "theorems": [
    "Verif.Communities.C181_one_event_partial",
    "Verif.Communities.C181_silent",
    "Verif.Communities.C181_unlock_fails"
   ],
   "note": "False of unlock, which sets funds free and adds no event (C181_unlock_fails). Proved for every other call (C181_one_event_partial), except that the event of demote has the rank before (C47_demote_event_fails) and that of remove_member names the account it was given, whose membership it need not be (C46_named_member_fails)."
  },
  {
   "property": "C182",
   "status": "partial",
   "theorems": [
    "Verif.Communities.C182_admins_partial",
    "Verif.Communities.C182_events_stay",
    "Verif.Governance.C182_communities",
    "Verif.Governance.C182_first_admin_fails"
   ],
   "note": "False of the first admin: CommunityRegistered names the community only, so two registrations with different admins have the same events (C182_first_admin_fails). Proved: which communities exist (C182_communities), and every later change of the admins (C182_admins_partial, for an observer who also sees the registering transactions)."
  },
  {
   "property": "C183",
   "status": "partial",
   "theorems": [
    "Verif.Communities.C183_votes_partial",
    "Verif.Communities.C183_votes_fails",
    "Verif.Communities.C183_own_vote_partial"
   ],
   "note": "False of accounts with two memberships of a community: VoteCasted and VoteRemoved do not name the membership (C183_votes_fails). Proved if each account votes with one membership (C183_votes_partial), and of one account that does whatever the others do (C183_own_vote_partial)."
  },
  {
   "property": "C184",
   "status": "proved",
   "theorems": [
    "Verif.Governance.C184_falls",
    "Verif.Governance.C184_voices"
   ],
   "note": "Assumes that no two payments share an id (C109 tells when they may), and leaves apart rests below the minimum of the asset, which are swept as dust, and whatever is not payments (transfers, fees). An administrator is one account, and needs no referendum."
  },
  {
   "property": "C185",
   "status": "partial",
   "theorems": [
    "Verif.Payments.C185_standing_partial",
    "Verif.Payments.Kreivo.C185_events_fails"
   ],
   "note": "False of the parties, which no event names; of requests, whose event has no amount; and of disputes: PaymentDisputeResolved does not tell the result, and PaymentResolved, which would, is never emitted (C185_events_fails). Proved: which ids are in use, how each payment stands, and asset and amount of every payment in escrow (C185_standing_partial), for every id that is not given to two senders (C109)."
  },
  {
   "property": "C186",
   "status": "proved",
   "theorems": [
    "Verif.Governance.C186_only_by_decision",
    "Verif.Governance.C186_as_community",
    "Verif.Governance.C186_majority",
    "Verif.Governance.C186_never_without_members"
   ],
   "note": "Root writing storage directly is one of its calls and may change the part looked at; governance storage is assumed not to be written in this way."
  },
  {
   "property": "C187",
   "status": "proved",
   "theorems": [
    "Verif.Governance.C187_by_decision",
    "Verif.Governance.C187_anybody",
    "Verif.Governance.C187_one_at_a_time",
    "Verif.Governance.C187_relay_agrees",
    "Verif.Governance.C187_newer"
   ],
   "note": "Different codes may not have the same hash: what is authorized is a hash, and the theorem speaks of codes with it."
  },
  {
   "property": "C188",
   "status": "proved",
   "theorems": [
    "Verif.Governance.C188_code_by_decision",
    "Verif.Governance.C188_first_contract",
    "Verif.Governance.C188_kept_codes",
    "Verif.Governance.C188_called",
    "Verif.Governance.C188_changed"
   ],
   "note": ""
  },
  {
   "property": "C189",
   "status": "proved",
   "theorems": [
    "Verif.Governance.C189_own_hand",
    "Verif.Governance.C189_by_decision",
    "Verif.Governance.C189_transfer"
   ],
   "note": "What other pallets take (fees, deposits, slashes) is not looked at here."
  },
  {
   "property": "C190",
   "status": "proved",
   "theorems": [
    "Verif.Governance.C190_calls",
    "Verif.Governance.C190_no_new",
    "Verif.Governance.C190_by_decision"
   ],
   "note": ""
  },
  {
   "property": "C191",
   "status": "partial",
   "theorems": [
    "Verif.Payments.C191_meanwhile",
    "Verif.Payments.C191_whole_life_partial",
    "Verif.Payments.C191_whole_life_without_accept",
    "Verif.Payments.C191_whole_life_fails"
   ],
   "note": "False as stated: accept_and_pay on a payment already in escrow pays it a second time and leaves the first escrow held (C191_whole_life_fails); the partial theorem has this as a fourth outcome, C191_whole_life_without_accept is the claim as stated for histories without it."
  },
  {
   "property": "C192",
   "status": "proved",
   "theorems": [
    "Verif.Governance.C192_no_membership_moves",
    "Verif.Governance.C192_no_member_without_the_community",
    "Verif.Governance.C192_no_member_loses_it",
    "Verif.Governance.C192_stays_closed"
   ],
   "note": "Full for the modelled calls; the account of the community is taken to have no key (it is derived from the pallet id), so that it signs no transaction and no pre-signed mint. pallet_nfts is outside /repo and modelled as for C124."
  },
  {
   "property": "C193",
   "status": "proved",
   "theorems": [
    "Verif.Runtime.Serving.C193_author",
    "Verif.Runtime.Serving.C193_turn",
    "Verif.Runtime.Serving.C193_in_line"
   ],
   "note": "for chains from genesis; that the author sealed the block is C170"
  },
  {
   "property": "C194",
   "status": "partial",
   "theorems": [
    "Verif.Runtime.Serving.C194_calls_partial",
    "Verif.Runtime.Serving.C194_active_partial",
    "Verif.Runtime.Serving.C194_grace_partial",
    "Verif.Runtime.Serving.C194_chance_partial",
    "Verif.Runtime.Serving.C194_no_chance_fails",
    "Verif.Runtime.Serving.C194_unwanted_fails"
   ],
   "note": "false for candidates who register in a block in which a session ends, and for candidates who are never chosen"
  },
  {
   "property": "C195",
   "status": "partial",
   "theorems": [
    "Verif.Governance.C195_on_record_partial",
    "Verif.Governance.C195_weight_partial",
    "Verif.Governance.C195_majority_partial",
    "Verif.Governance.C195_ghost_votes_fails"
   ],
   "note": "false of communities that decide by rank, where a demoted member who takes back a vote leaves weight behind; proved for one vote per membership, and for all methods when no standing vote changes its weight"
  },
  {
   "property": "C196",
   "status": "partial",
   "theorems": [
    "Verif.Governance.C196_unopposed_partial",
    "Verif.Governance.C196_rejected_partial",
    "Verif.Governance.C196_rejected_weight_partial",
    "Verif.Governance.C196_rank_zero_fails"
   ],
   "note": "false of communities that decide by rank, where the votes of members of rank 0 weigh nothing; proved for one vote per membership, and the second half for all methods when no standing vote changes its weight"
  },
  {
   "property": "C197",
   "status": "proved",
   "theorems": [
    "Verif.Governance.C197_rejected",
    "Verif.Governance.C197_approved"
   ],
   "note": "the sums are those of the votes on record, each with the rank its voter had when voting"
  },
  {
   "property": "C198",
   "status": "partial",
   "theorems": [
    "Verif.Governance.C198_counts_once_partial",
    "Verif.Governance.C198_calls_polite",
    "Verif.Governance.C198_counts_once_fails",
    "Verif.Governance.C198_frozen_is_there",
    "Verif.Governance.C198_own_partial"
   ],
   "note": "Accounts with two memberships cast the same coins with both (C198_counts_once_fails); proved where no account has two votes on record in a poll, and for each account that has not, whatever others do (C198_own_partial). What is frozen for votes is there in every history that does not take it (C198_frozen_is_there). C198_calls_polite: signed calls of the balances pallet leave what is frozen."
  },
  {
   "property": "C199",
   "status": "proved",
   "theorems": [
    "Verif.Xcm.C199_kept",
    "Verif.Xcm.C199_kept_all",
    "Verif.Xcm.C199_none_arrive",
    "Verif.Xcm.C199_stays"
   ],
   "note": "Teleporting out is not disabled by IsTeleporter = (): a message can still send assets away this way, and what it sends is kept on the checking account, whence only the relay chain can move it."
  },
  {
   "property": "C200",
   "status": "proved",
   "theorems": [
    "Verif.Runtime.Units.C200_taken",
    "Verif.Runtime.Units.C200_frozen",
    "Verif.Runtime.Units.C200_arrives",
    "Verif.Runtime.Units.C200_can_send"
   ],
   "note": "The full model of the assets pallet; C134 treats the calls without approvals, freezing and giving up, but nested in dispatch_as_account."
  },
  {
   "property": "C201",
   "status": "partial",
   "theorems": [
    "Verif.Runtime.Units.C201_frozen_stays_partial",
    "Verif.Runtime.Units.C201_frozen_stays_others",
    "Verif.Runtime.Units.C201_frozen_stays_fails"
   ],
   "note": "Fails in full: a holder whose units are frozen for votes gives the account up (refund with burning): units and freeze are gone while the vote still counts. The rest is proved: calls of others, and every other call of the holder; the asset not being destroyed."
  },
  {
   "property": "C202",
   "status": "partial",
   "theorems": [
    "Verif.Runtime.Units.C202_asked",
    "Verif.Runtime.Units.C202_delegate_partial",
    "Verif.Runtime.Units.C202_delegate_fails",
    "Verif.Runtime.Units.C202_leave_more",
    "Verif.Runtime.Units.C202_takes_back",
    "Verif.Runtime.Units.C202_forced_back",
    "Verif.Runtime.Units.C202_leave_less",
    "Verif.Runtime.Units.C202_with_rests"
   ],
   "note": "Fails in full: a rest below the minimum goes along with an approved transfer and is not taken off the leave (leave for 95 takes 100). What is asked for is within the leave, and what is taken when no rest goes along. In every history what is taken is within the leave given and one rest below the minimum each time the account is emptied (C202_with_rests)."
  },
  {
   "property": "C203",
   "status": "partial",
   "theorems": [
    "Verif.Runtime.Units.C203_within_supply",
    "Verif.Runtime.Units.C203_supply_partial",
    "Verif.Runtime.Units.C203_supply_fails",
    "Verif.Runtime.Units.C203_own_supply_partial"
   ],
   "note": "Never more than the supply: proved. Equality fails: units of an account given up or destroyed stay in the supply on record. It holds on histories without these. For one asset it needs only its own accounts not to be given up, whatever happens to other assets (C203_own_supply_partial)."
  },
  {
   "property": "C204",
   "status": "proved",
   "theorems": [
    "Verif.Runtime.Units.C204_deposits",
    "Verif.Runtime.Units.C204_nothing_left",
    "Verif.Runtime.Units.C204_price",
    "Verif.Runtime.Units.C204_approval_price"
   ],
   "note": ""
  },
  {
   "property": "C205",
   "status": "proved",
   "theorems": [
    "Verif.Runtime.Units.C205_gone",
    "Verif.Runtime.Units.C205_counted",
    "Verif.Runtime.Units.C205_finishes",
    "Verif.Runtime.Units.C205_ends"
   ],
   "note": ""
  },
  {
   "property": "C206",
   "status": "proved",
   "theorems": [
    "Verif.Runtime.Units.C206_minted",
    "Verif.Runtime.Units.C206_burned",
    "Verif.Runtime.Units.C206_hands",
    "Verif.Runtime.Units.C206_amended",
    "Verif.Runtime.Units.C206_comes_and_goes"
   ],
   "note": ""
  },
  {
   "property": "C207",
   "status": "proved",
   "theorems": [
    "Verif.Governance.C207_governance",
    "Verif.Governance.C207_scheduled",
    "Verif.Governance.C207_same_origin",
    "Verif.Governance.C207_payments",
    "Verif.Runtime.Batches.C207_all_or_nothing",
    "Verif.Runtime.Batches.C207_up_to_error",
    "Verif.Runtime.Batches.C207_forced",
    "Verif.Runtime.Batches.C207_refused",
    "Verif.Runtime.Batches.C207_nested",
    "Verif.Runtime.Batches.C207_one_by_one",
    "Verif.Runtime.Batches.C207_in_order",
    "Verif.Runtime.Batches.C207_keeps",
    "Verif.Runtime.Batches.C207_assets"
   ],
   "note": ""
  },
  {
   "property": "C208",
   "status": "proved",
   "theorems": [
    "Verif.Runtime.Units.C208_given",
    "Verif.Runtime.Units.C208_given_others",
    "Verif.Runtime.Units.C208_blocked",
    "Verif.Runtime.Units.C208_fits",
    "Verif.Runtime.Units.C208_minimum",
    "Verif.Runtime.Units.C208_all",
    "Verif.Runtime.Units.C208_own_minimum"
   ],
   "note": ""
  },
  {
   "property": "C209",
   "status": "proved",
   "theorems": [
    "Verif.Runtime.Units.C209_reserved",
    "Verif.Runtime.Units.C209_closed"
   ],
   "note": ""
  },
  {
   "property": "C210",
   "status": "proved",
   "theorems": [
    "Verif.Runtime.C210_vouched",
    "Verif.Runtime.C210_devices",
    "Verif.Runtime.C210_once"
   ],
   "note": ""
  },
  {
   "property": "C211",
   "status": "proved",
   "theorems": [
    "Verif.Runtime.C211_session",
    "Verif.Runtime.C211_signed",
    "Verif.Runtime.C211_others",
    "Verif.Runtime.C211_lasts",
    "Verif.Runtime.C211_login"
   ],
   "note": ""
  },
  {
   "property": "C212",
   "status": "partial",
   "theorems": [
    "Verif.Runtime.C212_own_use_fails",
    "Verif.Runtime.C212_window_partial",
    "Verif.Runtime.C212_refused_partial"
   ],
   "note": "False: the challenge a device signs is the hash of a block and says nothing about signer or call, so whoever sees a credential can open their own session with it in the next three blocks."
  },
  {
   "property": "C213",
   "status": "proved",
   "theorems": [
    "Verif.Runtime.C213_pot",
    "Verif.Runtime.C213_half",
    "Verif.Runtime.C213_paid",
    "Verif.Runtime.C213_only_authors",
    "Verif.Runtime.C213_at_most_half",
    "Verif.Runtime.C213_balanced"
   ],
   "note": ""
  },
  {
   "property": "C214",
   "status": "proved",
   "theorems": [
    "Verif.Xcm.C214_modest",
    "Verif.Xcm.C214_programs",
    "Verif.Xcm.C214_goods",
    "Verif.Xcm.C214_who",
    "Verif.Xcm.C214_communities_speak",
    "Verif.Xcm.C214_own_name",
    "Verif.Xcm.C214_one_community"
   ],
   "note": "Accounts laid out like sub-accounts of other pallets also pass for communities: that is C74_treasury_speaks_fails. Messages root sends to the relay chain itself are left out."
  },
  {
   "property": "C215",
   "status": "partial",
   "theorems": [
    "Verif.Runtime.C215_unlock_partial",
    "Verif.Runtime.C215_keep_partial",
    "Verif.Runtime.C215_stuck_fails"
   ],
   "note": "False of the code: the pallet freezes up to the whole balance and fees are charged out of what is not frozen (C215_stuck_fails). Proved: who keeps the fee beyond the stake and the existential deposit can vote and can unlock. Without gas; no other freezes or reserves."
  },
  {
   "property": "C216",
   "status": "partial",
   "theorems": [
    "Verif.Governance.C216_own_partial",
    "Verif.Governance.C216_own_unlocks_partial",
    "Verif.Governance.C216_units_partial",
    "Verif.Governance.C216_unlocks_partial",
    "Verif.Governance.C216_units_fails",
    "Verif.Governance.C216_unlocks_fails"
   ],
   "note": "Fails when the voter gives the account with the frozen units up (refund with allow_burn): the vote stands without units (C216_units_fails) and locks cannot be removed (C216_unlocks_fails). Proved for histories without that, without destroying accounts that have frozen units, without forced minimums and with one vote per account and poll; and for each account to which none of that happens, whatever the other accounts do (C216_own_partial, C216_own_unlocks_partial)."
  },
  {
   "property": "C217",
   "status": "proved",
   "theorems": [
    "Verif.Xcm.C217_tried",
    "Verif.Xcm.C217_hundred",
    "Verif.Xcm.C217_ends"
   ],
   "note": "Full: every message, whatever fails."
  },
  {
   "property": "C218",
   "status": "proved",
   "theorems": [
    "Verif.Runtime.C218_sizes",
    "Verif.Runtime.C218_admins"
   ],
   "note": "Full for six maps; the encoding of origins is a parameter, so for the seventh an exact condition is proved."
  },
  {
   "property": "C219",
   "status": "proved",
   "theorems": [
    "Verif.Runtime.Length.C219_at_most",
    "Verif.Runtime.Length.C219_goes_in",
    "Verif.Runtime.Length.C219_operational_room"
   ],
   "note": "An inherent that does not fit stays out in the model; in the node the block would be invalid."
  },
  {
   "property": "C220",
   "status": "proved",
   "theorems": [
    "Verif.Runtime.C220_goes_in",
    "Verif.Runtime.C220_next_block",
    "Verif.Runtime.C220_after_hooks",
    "Verif.Runtime.C220_sized",
    "Verif.Runtime.C220_later"
   ],
   "note": "Hooks at the start of a block are not part of this history but counted in C220_after_hooks, up to a quarter of the block; what they leave when they use more is C101. The length is checked in C220_sized; the other theorems leave it out."
  },
  {
   "property": "C221",
   "status": "partial",
   "theorems": [
    "Verif.Governance.C221_never",
    "Verif.Governance.C221_fails",
    "Verif.Governance.C221_authorized_partial"
   ],
   "note": "set_code made by the scheduler never makes a code wait: the validation data is gone by then. Authorizing and handing in works."
  }
 ]
}