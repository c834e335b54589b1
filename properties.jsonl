{"id": "C01", "title": "Every open payment is fully backed by held funds", "statement": "At any point of any history, for every asset and account, the amount held by the payments pallet on that account is at least the sum of what all open payments say is escrowed there: sender fees plus incentive on the sender, the amount (plus the incentive while under review) on the beneficiary.", "quantifier": "all assets, accounts, finite sets of payments, and all histories of calls, scheduler executions, block ticks and outside balance changes", "why_tests_cant": "The sum ranges over an unbounded number of payments and every interleaving of calls; a test only checks a few payments.", "anchors": [{"file": "pallets/payments/src/lib.rs", "symbols": ["pay", "reserve_payment_amount", "cancel_payment", "settle_payment", "dispute_refund"]}]}
{"id": "C02", "title": "No call creates or destroys money", "statement": "Every payments call, successful or not, leaves the total of free plus held balances of each asset unchanged over all accounts, except that an outgoing transfer that empties an account below the asset minimum may burn the dust; a failed call changes nothing at all.", "quantifier": "all states, origins, calls, fee schedules (including aliased parties and fee recipients) and ledger environments", "why_tests_cant": "Aliasing between sender, beneficiary, fee recipients and resolver gives a combinatorial number of cases.", "anchors": [{"file": "pallets/payments/src/lib.rs", "symbols": ["pay", "release", "accept_and_pay", "cancel", "resolve_dispute", "try_transfer_fees"]}]}
{"id": "C03", "title": "pay escrows exactly the promised amounts", "statement": "A successful pay moves exactly `amount` from the sender's free balance into a hold on the beneficiary, moves the sender's total fees plus the incentive from the sender's free balance to a hold on the sender, and changes no other balance or hold of any account in any asset.", "quantifier": "all states, senders, beneficiaries (also equal), assets, amounts, fee schedules", "why_tests_cant": "Exactness for every amount, fee list and aliasing of accounts.", "anchors": [{"file": "pallets/payments/src/lib.rs", "symbols": ["pay", "create_payment", "reserve_payment_amount"]}, {"file": "pallets/payments/src/types.rs", "symbols": ["Fees::summary_for"]}]}
{"id": "C04", "title": "release pays the beneficiary and every fee recipient exactly", "statement": "A successful release unholds exactly what pay held for that payment and then moves exactly the sender fees from the sender and the beneficiary fees from the beneficiary to their recipients; each account's total balance changes by exactly the net of those fee movements.", "quantifier": "all states, payments, fee schedules with repeated or aliased recipients whose sums fit the balance type", "why_tests_cant": "Repeated recipients, aliasing and arbitrary list lengths cannot be enumerated.", "anchors": [{"file": "pallets/payments/src/lib.rs", "symbols": ["release", "settle_payment", "try_transfer_fees"]}, {"file": "pallets/payments/src/types.rs", "symbols": ["Fees::get_summary"]}]}
{"id": "C05", "title": "cancel gives everything back", "statement": "A successful cancel by the beneficiary undoes pay exactly: every account's total balance and held balance moves by exactly the opposite of what pay moved, so the sender recovers amount, fees and incentive in full and no fee is charged. The one exception: if the beneficiary would be left with a rest below the asset's minimum, that rest may go to the sender too or be burned, and nothing else.", "quantifier": "all states and payments, also across arbitrary histories between pay and cancel", "why_tests_cant": "Quantifies over every amount, fee schedule and history between the two calls.", "anchors": [{"file": "pallets/payments/src/lib.rs", "symbols": ["cancel", "cancel_payment", "reserve_payment_amount"]}]}
{"id": "C06", "title": "Dispute resolution distributes exactly the escrow", "statement": "A successful resolve_dispute unholds exactly the sender's fees and incentive and the beneficiary's amount and incentive, moves one incentive from the losing party to the resolver, charges only fees flagged as chargeable on disputes (if a recipient has fees of both kinds, all or none of them, as the first is flagged), and returns to the sender the rounded-down share (sender wins: share of amount; beneficiary wins: amount minus the rounded-down share). Besides, at most two rests below the asset's minimum leave the accounts that pay the incentive and the share, each to the one paid or burned.", "quantifier": "all states, payments, fee schedules whose sums fit the balance type, percentages 0..100, winners and resolvers", "why_tests_cant": "Rounding, aliasing and percentages range over unbounded domains.", "anchors": [{"file": "pallets/payments/src/lib.rs", "symbols": ["resolve_dispute", "settle_payment"]}, {"file": "pallets/payments/src/types.rs", "symbols": ["DisputeResult"]}]}
{"id": "C07", "title": "Holds taken equal holds released, even when saturating", "statement": "For every fee schedule the amount put on hold on the sender at pay equals the amount released at cancel, release and resolve_dispute, whatever the split between fees that are and are not chargeable on disputes, even if sums saturate at the balance type's maximum.", "quantifier": "all fee lists, incentives and dispute flags", "why_tests_cant": "Arbitrary lists and saturating arithmetic at the numeric limit.", "anchors": [{"file": "pallets/payments/src/types.rs", "symbols": ["Fees::get_summary"]}, {"file": "pallets/payments/src/lib.rs", "symbols": ["reserve_payment_amount", "cancel_payment", "settle_payment"]}]}
{"id": "C08", "title": "Payment life cycle follows the documented state machine", "statement": "In every step of every history a payment record either stays as it was or moves along one of: absent->Created (pay), absent->PaymentRequested (request_payment), PaymentRequested overwritten by a new request or payment with the same id, Created->RefundRequested, Created->Finished, RefundRequested->NeedsReview, NeedsReview->Finished, PaymentRequested->Finished, Created or RefundRequested->absent. No other change of a record is possible.", "quantifier": "all histories and all payment keys", "why_tests_cant": "Requires all interleavings of all calls by all parties.", "anchors": [{"file": "pallets/payments/src/lib.rs", "symbols": ["Payment", "create_payment", "release", "request_refund", "accept_and_pay", "cancel", "dispute_refund", "resolve_dispute"]}]}
{"id": "C09", "title": "Only the right party can move a payment", "statement": "If a step changes the record of a payment then the step was made by the party entitled to that change: the sender (release, request_refund, accept_and_pay, pay), the beneficiary of record or the scheduled cancellation acting for them (cancel, dispute_refund, request_payment), or the dispute resolver (resolve_dispute).", "quantifier": "all states, origins, calls and payment keys", "why_tests_cant": "Must hold for every origin and call, not just the ones tried.", "anchors": [{"file": "pallets/payments/src/lib.rs", "symbols": ["SenderOrigin", "BeneficiaryOrigin", "DisputeResolver"]}]}
{"id": "C10", "title": "A call about one payment leaves all other payments alone", "statement": "Any call that names a payment id changes the record of at most one payment; all other payments' records, including those with the same id and another sender, are untouched.", "quantifier": "all states, calls and pairs of payment keys", "why_tests_cant": "Frame conditions quantify over all other records.", "anchors": [{"file": "pallets/payments/src/lib.rs", "symbols": ["Payment", "PaymentParties"]}]}
{"id": "C11", "title": "Finished payments are final", "statement": "Once a payment is Finished no call moves funds on its account or changes its record again.", "quantifier": "all histories after the payment is finished", "why_tests_cant": "Requires considering every later call by every party.", "anchors": [{"file": "pallets/payments/src/lib.rs", "symbols": ["accept_and_pay", "settle_payment", "create_payment"]}]}
{"id": "C12", "title": "accept_and_pay only fulfils outstanding payment requests", "statement": "accept_and_pay succeeds only for a payment in state PaymentRequested; it never applies to a payment whose funds are already escrowed, under review or settled.", "quantifier": "all states and callers", "why_tests_cant": "Quantifies over all states a payment can be in when the call arrives.", "anchors": [{"file": "pallets/payments/src/lib.rs", "symbols": ["accept_and_pay"]}]}
{"id": "C13", "title": "Requested payments transfer exactly once and to the requester", "statement": "A successful accept_and_pay on a requested payment moves exactly the requested amount from the caller to the requester plus the fees of both parties, uses no holds, and leaves the payment Finished.", "quantifier": "all states, amounts, fee schedules, up to a swept or burned remainder below the minimum", "why_tests_cant": "Exactness for all amounts, lists and aliasing.", "anchors": [{"file": "pallets/payments/src/lib.rs", "symbols": ["accept_and_pay", "try_transfer_fees"]}]}
{"id": "C14", "title": "request_payment moves no funds", "statement": "request_payment changes no balance and no hold of anyone; it only records the request under the named sender, who alone can fulfil it.", "quantifier": "all states, requesters, senders, assets and amounts", "why_tests_cant": "Absence of effects on every account.", "anchors": [{"file": "pallets/payments/src/lib.rs", "symbols": ["request_payment", "create_payment"]}]}
{"id": "C15", "title": "Refund deadline is exactly the configured buffer", "statement": "A successful request_refund sets the deadline to the current block plus the configured buffer, announces that block in the event, and schedules one cancellation in the beneficiary's name for exactly that block; it fails (and changes nothing) if the addition overflows.", "quantifier": "all states, blocks and buffer lengths", "why_tests_cant": "All block numbers including overflow.", "anchors": [{"file": "pallets/payments/src/lib.rs", "symbols": ["request_refund", "CancelBufferBlockLength"]}, {"file": "runtime/kreivo/src/payments.rs", "symbols": ["CancelBufferBlockLength"]}]}
{"id": "C16", "title": "The beneficiary can dispute strictly before the deadline and not after", "statement": "dispute_refund succeeds only while the current block is strictly less than the announced deadline; it moves the payment to review, holds the incentive on the beneficiary and removes the scheduled cancellation.", "quantifier": "all states and block numbers", "why_tests_cant": "Boundary over all block numbers and schedules.", "anchors": [{"file": "pallets/payments/src/lib.rs", "symbols": ["dispute_refund"]}]}
{"id": "C17", "title": "A disputed refund is never executed automatically", "statement": "After a successful dispute no scheduled cancellation for that payment exists, and in every later history the payment leaves review only through resolve_dispute (or the sender paying again through accept_and_pay).", "quantifier": "all histories after a dispute", "why_tests_cant": "All later schedules.", "anchors": [{"file": "pallets/payments/src/lib.rs", "symbols": ["dispute_refund", "resolve_dispute", "cancel"]}]}
{"id": "C18", "title": "The automatic refund never happens before the deadline", "statement": "In every history, a payment in RefundRequested with deadline d is not cancelled by the scheduler in any block before d.", "quantifier": "all histories and schedules", "why_tests_cant": "All schedules of calls and block production.", "anchors": [{"file": "pallets/payments/src/lib.rs", "symbols": ["request_refund", "cancel"]}]}
{"id": "C19", "title": "An undisputed refund always completes", "statement": "In every reachable state, when the scheduler runs the cancellation of a payment in RefundRequested and the asset ledger accepts the releases and the transfer, the cancellation succeeds, the sender recovers everything, and the record is gone.", "quantifier": "all reachable states with a pending refund", "why_tests_cant": "Needs the global backing invariant over all histories.", "anchors": [{"file": "pallets/payments/src/lib.rs", "symbols": ["cancel", "cancel_payment", "request_refund"]}]}
{"id": "C20", "title": "A created payment can always be released by the sender", "statement": "In every reachable state the sender of a Created payment can release it, provided the ledger accepts transfers and both parties keep the minimum balance after paying their fees.", "quantifier": "all reachable states with a created payment", "why_tests_cant": "Needs the backing invariant over all histories.", "anchors": [{"file": "pallets/payments/src/lib.rs", "symbols": ["release", "settle_payment"]}]}
{"id": "C21", "title": "The parties index agrees with the payment record", "statement": "In every reachable state, if the parties recorded for a payment id are (s, b) then the payment of s with that id exists and names b as beneficiary.", "quantifier": "all histories", "why_tests_cant": "Inductive invariant over every history.", "anchors": [{"file": "pallets/payments/src/lib.rs", "symbols": ["PaymentParties", "create_payment", "cancel"]}]}
{"id": "C22", "title": "Every open payment can be found through its id", "statement": "In every reachable state, for every open payment of sender s with id i, the parties recorded for i are s and the payment's beneficiary, so the beneficiary can cancel or dispute and the resolver can resolve it.", "quantifier": "all histories", "why_tests_cant": "Depends on id collisions across senders which tests do not produce.", "anchors": [{"file": "pallets/payments/src/lib.rs", "symbols": ["PaymentParties"]}, {"file": "runtime/kreivo/src/payments.rs", "symbols": ["PaymentId::next"]}]}
{"id": "C23", "title": "No funds stay held without an open payment", "statement": "In every reachable state the amount held on an account is exactly the sum of what open payments escrow there, so nothing is stranded in holds.", "quantifier": "all histories starting without holds", "why_tests_cant": "Global equality over all histories and payments.", "anchors": [{"file": "pallets/payments/src/lib.rs", "symbols": ["accept_and_pay", "settle_payment", "cancel_payment"]}]}
{"id": "C24", "title": "A scheduled cancellation only ever cancels the payment whose refund was requested", "statement": "The scheduler's cancellation for a payment id acts only on the payment for which request_refund created it.", "quantifier": "all histories", "why_tests_cant": "Needs stale tasks and id reuse across histories.", "anchors": [{"file": "pallets/payments/src/lib.rs", "symbols": ["request_refund", "cancel", "dispute_refund"]}]}
{"id": "C25", "title": "A new payment never overwrites an open one", "statement": "pay and request_payment fail with PaymentAlreadyInProcess, changing nothing, if a payment with that sender and id exists in any state other than PaymentRequested.", "quantifier": "all states and id generators", "why_tests_cant": "All states and id collisions.", "anchors": [{"file": "pallets/payments/src/lib.rs", "symbols": ["create_payment"]}]}
{"id": "C26", "title": "Dispute charges only fees flagged chargeable on disputes", "statement": "On resolution of a dispute exactly the fee entries flagged as chargeable are transferred, for both sides.", "quantifier": "all fee schedules, with repeated recipients and mixed flags", "why_tests_cant": "Aggregation over arbitrary lists.", "anchors": [{"file": "pallets/payments/src/types.rs", "symbols": ["Fees::get_summary"]}, {"file": "pallets/payments/src/lib.rs", "symbols": ["try_transfer_fees"]}]}
{"id": "C27", "title": "Fees of the same recipient are aggregated without loss", "statement": "Summarising a fee list yields one entry per distinct recipient in increasing account order, whose amount is the sum of that recipient's entries, and the totals charged equal the sum of all entries as long as they fit the balance type.", "quantifier": "all fee lists", "why_tests_cant": "Arbitrary lists.", "anchors": [{"file": "pallets/payments/src/types.rs", "symbols": ["Fees::get_summary"]}]}
{"id": "C28", "title": "A payment never costs the beneficiary more than it brings", "statement": "Releasing a payment never decreases the beneficiary's total balance net of the escrowed amount: beneficiary fees never exceed the amount paid.", "quantifier": "all amounts and fee configurations", "why_tests_cant": "Small amounts against minimum fees.", "anchors": [{"file": "pallets/payments/src/lib.rs", "symbols": ["settle_payment"]}, {"file": "runtime/kreivo/src/payments.rs", "symbols": ["KreivoFeeHandler"]}]}
{"id": "C29", "title": "Kreivo fees are 1% and 3% with the asset minimum as floor, communities exempt", "statement": "On Kreivo the sender fee is max(asset minimum, floor(1% amount)) and the beneficiary fee max(asset minimum, floor(3% amount)), paid to the treasury and chargeable on disputes; a party that is a community account pays none; the incentive is floor(10% amount).", "quantifier": "all amounts, assets, parties", "why_tests_cant": "All u128 amounts and accounts.", "anchors": [{"file": "runtime/kreivo/src/payments.rs", "symbols": ["KreivoFeeHandler::apply_fees", "SENDER_FEE", "BENEFICIARY_FEE", "INCENTIVE_PERCENTAGE"]}]}
{"id": "C30", "title": "Kreivo payment lifecycle cost bound", "statement": "On Kreivo a sender paying a released payment is out of pocket at most amount + max(min, 1%) and never charged the incentive; the beneficiary receives at least amount - max(min, 3%).", "quantifier": "all Kreivo payments", "why_tests_cant": "All amounts.", "anchors": [{"file": "runtime/kreivo/src/payments.rs", "symbols": ["KreivoFeeHandler"]}, {"file": "pallets/payments/src/lib.rs", "symbols": ["release"]}]}
{"id": "C31", "title": "Dispute incentive discipline", "statement": "Whoever loses a dispute pays exactly one incentive to the resolver, the winner's incentive hold is returned in full, and the sum of both sides' payouts of the amount is the amount.", "quantifier": "all disputes", "why_tests_cant": "All percentages and amounts.", "anchors": [{"file": "pallets/payments/src/lib.rs", "symbols": ["settle_payment"]}]}
{"id": "C32", "title": "A successful dispute resolution or release empties the escrow of that payment", "statement": "After release or resolve_dispute the holds attributable to the payment are gone on both sides and the state is Finished.", "quantifier": "all states", "why_tests_cant": "All fee splits.", "anchors": [{"file": "pallets/payments/src/lib.rs", "symbols": ["settle_payment"]}]}
{"id": "C33", "title": "Accounts outside a payment never lose money", "statement": "In any successful payments call, an account that is neither the sender, nor the beneficiary of the payment concerned never has its free or held balance decreased.", "quantifier": "all states, calls and accounts", "why_tests_cant": "All third parties and fee recipients.", "anchors": [{"file": "pallets/payments/src/lib.rs", "symbols": ["settle_payment", "cancel_payment", "try_transfer_fees", "accept_and_pay"]}]}
{"id": "C34", "title": "Payment ids convert to u64 and back without loss", "statement": "Converting a payment id to u64 and back, and a u64 to a payment id and back, is the identity.", "quantifier": "all 2^64 ids", "why_tests_cant": "2^64 values.", "anchors": [{"file": "common/src/payment_id.rs", "symbols": ["From<PaymentId> for u64", "From<u64> for PaymentId"]}]}
{"id": "C35", "title": "Payment ids survive SCALE encoding", "statement": "Decoding an encoded payment id returns it, consumes exactly eight bytes whatever follows, and fails on fewer than eight bytes.", "quantifier": "all ids and trailing inputs", "why_tests_cant": "2^64 ids and unbounded input suffixes.", "anchors": [{"file": "common/src/payment_id.rs", "symbols": ["Encode", "Decode", "MaxEncodedLen"]}]}
{"id": "C36", "title": "Printed payment ids parse back", "statement": "Parsing the text of a payment id, with or without the dash separator, returns the same id.", "quantifier": "all 2^64 ids", "why_tests_cant": "Base58 carry behaviour over all ids.", "anchors": [{"file": "common/src/payment_id.rs", "symbols": ["Display", "FromStr"]}]}
{"id": "C37", "title": "Parsing never crashes", "statement": "Parsing any text as a payment id returns an id or an error, never panics.", "quantifier": "all strings", "why_tests_cant": "Unbounded inputs.", "anchors": [{"file": "common/src/payment_id.rs", "symbols": ["FromStr"]}]}
{"id": "C38", "title": "Distinct payments get distinct ids", "statement": "Two payments created in different blocks, or in different extrinsics of the same block, or to beneficiaries differing in the first two account bytes, get different ids.", "quantifier": "all blocks, extrinsic indices and beneficiaries", "why_tests_cant": "All pairs of creations.", "anchors": [{"file": "common/src/payment_id.rs", "symbols": ["From<(u32,u32,&[u8])>"]}, {"file": "runtime/kreivo/src/payments.rs", "symbols": ["PaymentId::next"]}]}
{"id": "C39", "title": "Payment ids order by block, so ids embed their provenance", "statement": "The block number, extrinsic index (mod 2^16) and two-byte beneficiary prefix can be read back from the id bytes and from the u64 form.", "quantifier": "all ids", "why_tests_cant": "2^64 values.", "anchors": [{"file": "common/src/payment_id.rs", "symbols": ["PaymentId"]}]}
{"id": "C40", "title": "Community ids are registered at most once", "statement": "Registering an existing community id fails and changes nothing; a registered community is never unregistered or reassigned by any call.", "quantifier": "all histories", "why_tests_cant": "All interleavings.", "anchors": [{"file": "pallets/communities/src/functions.rs", "symbols": ["register"]}, {"file": "pallets/communities/src/lib.rs", "symbols": ["create"]}]}
{"id": "C41", "title": "A community has at most one admin origin", "statement": "In every reachable state at most one origin maps to a given community, and any mapped community exists.", "quantifier": "all histories", "why_tests_cant": "Inductive invariant.", "anchors": [{"file": "pallets/communities/src/functions.rs", "symbols": ["register"]}, {"file": "pallets/communities/src/lib.rs", "symbols": ["set_admin_origin", "CommunityIdFor"]}]}
{"id": "C42", "title": "Changing an admin never affects other communities", "statement": "set_admin_origin by the admin of one community does not change which origin administers any other community.", "quantifier": "all states and new admins", "why_tests_cant": "All pairs of communities.", "anchors": [{"file": "pallets/communities/src/lib.rs", "symbols": ["set_admin_origin"]}]}
{"id": "C43", "title": "Registration takes the deposit or does nothing", "statement": "A successful registration moves exactly the deposit from the depositor to the depositee, and a failed one moves nothing; root registers for free, anyone else pays.", "quantifier": "all states and origins", "why_tests_cant": "All origins and balances.", "anchors": [{"file": "pallets/communities/src/functions.rs", "symbols": ["register"]}, {"file": "pallets/communities/src/origin.rs", "symbols": ["EnsureSignedPays"]}, {"file": "runtime/kreivo/src/communities/mod.rs", "symbols": ["RegisterOrigin"]}]}
{"id": "C44", "title": "Only the community's own authority manages its members", "statement": "add_member, remove_member, promote, demote and dispatch_as_account act only on the community of the calling origin.", "quantifier": "all origins and states", "why_tests_cant": "All origins.", "anchors": [{"file": "pallets/communities/src/lib.rs", "symbols": ["add_member", "remove_member", "promote", "demote", "dispatch_as_account"]}, {"file": "pallets/communities/src/origin.rs", "symbols": ["EnsureCommunity"]}]}
{"id": "C45", "title": "Only a community's own admin sets its decision method", "statement": "set_decision_method changes the decision method of a community only when called by that community's admin.", "quantifier": "all origins and states", "why_tests_cant": "All pairs of communities.", "anchors": [{"file": "pallets/communities/src/lib.rs", "symbols": ["set_decision_method"]}]}
{"id": "C46", "title": "remove_member removes a membership of the named member", "statement": "A successful remove_member releases a membership that belonged to the named account.", "quantifier": "all states", "why_tests_cant": "All membership assignments.", "anchors": [{"file": "pallets/communities/src/lib.rs", "symbols": ["remove_member"]}]}
{"id": "C47", "title": "Rank changes by exactly one and the event reports the new rank", "statement": "promote and demote move the rank by exactly one (staying within 0..255) and the emitted event carries the rank now stored.", "quantifier": "all ranks and memberships", "why_tests_cant": "All ranks incl. limits.", "anchors": [{"file": "pallets/communities/src/lib.rs", "symbols": ["promote", "demote"]}]}
{"id": "C48", "title": "Only members vote, only on their own community's open polls", "statement": "A vote succeeds only when the signer holds the membership, the poll is ongoing and its track is the community of that membership, with a vote type matching the decision method and a weight above zero (and at least the asset minimum).", "quantifier": "all states, voters, polls, votes", "why_tests_cant": "All combinations.", "anchors": [{"file": "pallets/communities/src/lib.rs", "symbols": ["vote"]}, {"file": "pallets/communities/src/functions.rs", "symbols": ["try_vote"]}]}
{"id": "C49", "title": "One vote per membership and poll", "statement": "In every reachable state each membership contributes at most one vote to a poll; voting again replaces the earlier vote, also after the membership changed hands.", "quantifier": "all histories", "why_tests_cant": "All histories incl. membership transfers.", "anchors": [{"file": "pallets/communities/src/lib.rs", "symbols": ["vote", "remove_vote"]}, {"file": "pallets/communities/src/functions.rs", "symbols": ["try_vote", "try_remove_vote"]}]}
{"id": "C50", "title": "The tally equals the sum of the recorded votes", "statement": "At any time the ayes, nays and bare ayes of an ongoing poll equal the weighted sums over the votes on record.", "quantifier": "all histories", "why_tests_cant": "All histories.", "anchors": [{"file": "pallets/communities/src/functions.rs", "symbols": ["Tally::add_vote", "Tally::remove_vote", "try_vote", "try_remove_vote"]}]}
{"id": "C51", "title": "remove_vote undoes vote", "statement": "Removing a vote right after casting it restores the tally, the votes on record and the locks to what they were before.", "quantifier": "all states and votes", "why_tests_cant": "All tallies and lock sets.", "anchors": [{"file": "pallets/communities/src/functions.rs", "symbols": ["try_vote", "try_remove_vote", "update_locks"]}]}
{"id": "C52", "title": "Frozen funds cover every standing vote lock", "statement": "In every reachable state the voter's frozen balance is at least each of their standing locks in that currency, and equals the maximum after any lock removal.", "quantifier": "all histories", "why_tests_cant": "All lock sets.", "anchors": [{"file": "pallets/communities/src/functions.rs", "symbols": ["update_locks"]}]}
{"id": "C53", "title": "Every counted balance vote is backed by a lock", "statement": "In every reachable state each balance vote on record in a poll has a lock of at least its amount on the voter's account.", "quantifier": "all histories", "why_tests_cant": "Needs several memberships of one account.", "anchors": [{"file": "pallets/communities/src/functions.rs", "symbols": ["update_locks"]}, {"file": "pallets/communities/src/lib.rs", "symbols": ["CommunityVoteLocks"]}]}
{"id": "C54", "title": "Locks can be removed once a poll is over and not before", "statement": "unlock fails while the poll is ongoing; after it ended, unlock by a voter with a lock removes that lock and lowers the freeze to the largest remaining lock.", "quantifier": "all states", "why_tests_cant": "All lock sets.", "anchors": [{"file": "pallets/communities/src/lib.rs", "symbols": ["unlock"]}, {"file": "pallets/communities/src/functions.rs", "symbols": ["update_locks"]}]}
{"id": "C55", "title": "A vote cannot exceed the voter's balance", "statement": "A successful balance vote implies the voter's balance in that currency is at least the vote's amount.", "quantifier": "all states and votes", "why_tests_cant": "All balances.", "anchors": [{"file": "pallets/communities/src/functions.rs", "symbols": ["try_vote", "update_locks"]}]}
{"id": "C56", "title": "Approval and support are fractions that reflect the votes", "statement": "Approval is ayes/(ayes+nays) and support bare ayes/maximum support, each rounded down in parts per billion, between 0 and 100%, and zero when there is no aye vote.", "quantifier": "all tallies", "why_tests_cant": "All u32 triples.", "anchors": [{"file": "pallets/communities/src/impls.rs", "symbols": ["approval", "support"]}, {"file": "pallets/communities/src/types.rs", "symbols": ["max_support"]}]}
{"id": "C57", "title": "Approval is monotone", "statement": "Adding an aye vote never lowers approval and adding a nay never raises it.", "quantifier": "all tallies and weights", "why_tests_cant": "All tallies.", "anchors": [{"file": "pallets/communities/src/impls.rs", "symbols": ["approval"]}, {"file": "pallets/communities/src/functions.rs", "symbols": ["Tally::add_vote"]}]}
{"id": "C58", "title": "Blocked communities cannot act", "statement": "While a community is blocked no origin is accepted as its authority for administration or member management.", "quantifier": "all origins", "why_tests_cant": "All origins.", "anchors": [{"file": "pallets/communities/src/origin.rs", "symbols": ["EnsureCommunity"]}, {"file": "runtime/kreivo/src/communities/mod.rs", "symbols": ["AdminOrigin", "MemberMgmtOrigin"]}]}
{"id": "C59", "title": "Authority over a community comes only from that community", "statement": "The member-management and admin origin checks accept an origin for community c only if it is the community's own origin, its registered admin, or its own account.", "quantifier": "all origins", "why_tests_cant": "All accounts.", "anchors": [{"file": "pallets/communities/src/origin.rs", "symbols": ["EnsureCommunity"]}, {"file": "runtime/kreivo/src/communities/mod.rs", "symbols": ["AccountToCommunityId"]}]}
{"id": "C60", "title": "Community accounts are distinct and reversible", "statement": "Different community ids have different accounts, and the id can be recovered from the account.", "quantifier": "all 2^16 ids and account bytes", "why_tests_cant": "All id pairs.", "anchors": [{"file": "pallets/communities/src/functions.rs", "symbols": ["community_account"]}, {"file": "runtime/kreivo/src/communities/mod.rs", "symbols": ["AccountToCommunityId"]}]}
{"id": "C61", "title": "Community accounts never collide with other system accounts", "statement": "A community's account differs from the treasury and every other pallet account, from relay and sibling sovereign accounts and from accounts derived from foreign pallets.", "quantifier": "all community ids, pallet ids, para ids", "why_tests_cant": "All combinations.", "anchors": [{"file": "pallets/communities/src/functions.rs", "symbols": ["community_account"]}, {"file": "runtime/kreivo/src/xcm_config.rs", "symbols": ["LocationToAccountId"]}]}
{"id": "C62", "title": "dispatch_as_account runs calls only as the caller's community account", "statement": "The nested call is dispatched with exactly one origin: signed by the account of the community the outer origin speaks for; its failure is returned.", "quantifier": "all origins and calls", "why_tests_cant": "All origins.", "anchors": [{"file": "pallets/communities/src/functions.rs", "symbols": ["do_dispatch_as_community_account"]}, {"file": "pallets/communities/src/lib.rs", "symbols": ["dispatch_as_account"]}]}
{"id": "C63", "title": "Vote weights saturate instead of wrapping", "statement": "The weight of a balance vote is the amount capped at 2^32-1, never a wrapped value, and the tally components never decrease when a vote is added.", "quantifier": "all amounts, ranks and tallies", "why_tests_cant": "All u128 amounts.", "anchors": [{"file": "pallets/communities/src/types.rs", "symbols": ["Vote::weight"]}, {"file": "pallets/communities/src/functions.rs", "symbols": ["Tally::add_vote"]}]}
{"id": "C64", "title": "create_memberships mints consecutive ids, all priced, at most 1024", "statement": "A successful create_memberships mints exactly the ids start..start+amount-1 (stopping at the largest id) to the memberships manager at the given price, rejects amounts above 1024, and reports the number minted.", "quantifier": "all amounts, starts, collections", "why_tests_cant": "All amounts and starts.", "anchors": [{"file": "pallets/communities-manager/src/lib.rs", "symbols": ["create_memberships"]}]}
{"id": "C65", "title": "Manager registration is all or nothing", "statement": "register either creates the community, its membership collection, its referenda track bound to the community origin and its collective seat together, or changes nothing.", "quantifier": "all states and failures", "why_tests_cant": "All failure points.", "anchors": [{"file": "pallets/communities-manager/src/lib.rs", "symbols": ["register", "default_tack"]}]}
{"id": "C66", "title": "Default community track demands majority approval", "statement": "With the default track, at any point of the decision period the approval threshold is at least 50% and starts at 100%, and the support threshold falls from 50% to 0.", "quantifier": "all elapsed fractions", "why_tests_cant": "All Perbill values.", "anchors": [{"file": "pallets/communities-manager/src/lib.rs", "symbols": ["default_tack"]}]}
{"id": "C67", "title": "Asset ids and XCM locations convert back and forth", "statement": "Converting any local asset id to an XCM location and back yields the same id, and converting a supported location to an id and back yields the same location.", "quantifier": "all asset ids and locations", "why_tests_cant": "All parameter values.", "anchors": [{"file": "common/src/multilocation_asset_id.rs", "symbols": ["AsFungibleAssetLocation::convert", "convert_back"]}]}
{"id": "C68", "title": "Distinct foreign assets never share a local asset id", "statement": "Two different XCM locations never convert to the same local asset id.", "quantifier": "all pairs of locations", "why_tests_cant": "All pairs.", "anchors": [{"file": "common/src/multilocation_asset_id.rs", "symbols": ["AsFungibleAssetLocation::convert"]}]}
{"id": "C69", "title": "Location conversion never crashes", "statement": "Converting any XCM location to an asset id returns an id or none, never panics.", "quantifier": "all locations", "why_tests_cant": "u128 indices.", "anchors": [{"file": "common/src/multilocation_asset_id.rs", "symbols": ["AsFungibleAssetLocation::convert"]}]}
{"id": "C70", "title": "Only Asset Hub, the relay and asset-issuing siblings are trusted reserves", "statement": "An asset is accepted as reserve-transferred from an origin only if that origin is the asset's own reserve: Asset Hub (or the relay chain) for its assets, the sibling chain itself for its own assets.", "quantifier": "all assets and origins", "why_tests_cant": "All locations.", "anchors": [{"file": "runtime/kreivo/src/xcm_config.rs", "symbols": ["ReserveAssetsFrom", "ReserveForeignAssetsFrom", "Reserves"]}]}
{"id": "C71", "title": "XCM senders get distinct accounts", "statement": "The parent chain, each sibling parachain and each community plurality map to pairwise distinct local accounts; account locations map to their own 32 bytes; everything else maps to none.", "quantifier": "all locations handled by the converters", "why_tests_cant": "All para ids and bodies.", "anchors": [{"file": "runtime/kreivo/src/xcm_config.rs", "symbols": ["LocationToAccountId"]}, {"file": "runtime/kreivo/src/xcm_config/communities.rs", "symbols": ["PluralityConvertsToCommunityAccountId", "AccountId32FromRelay"]}]}
{"id": "C72", "title": "Community pluralities map to their own community account", "statement": "A community plurality location is mapped to the account of the community with that index, and to no other community's.", "quantifier": "all body indices", "why_tests_cant": "All u32 indices.", "anchors": [{"file": "runtime/kreivo/src/xcm_config/communities.rs", "symbols": ["PluralityConvertsToCommunityAccountId"]}]}
{"id": "C73", "title": "Community origins survive the trip through XCM", "statement": "A community origin converted to an XCM junction and back is the same community origin with the same voting subset; unsupported subsets are refused.", "quantifier": "all community origins", "why_tests_cant": "All subsets.", "anchors": [{"file": "pallets/communities/src/origin.rs", "symbols": ["TryFrom<RawOrigin> for Junction", "TryFrom<Junction> for RawOrigin"]}]}
{"id": "C74", "title": "Outgoing XCM from an account speaks for a community only if it is that community's account", "statement": "A signed account is presented to other chains as community c only if it is the account of community c. Messages an account executes on this chain are executed as that account, and no origin but a signed account or a community sends or executes any.", "quantifier": "all accounts", "why_tests_cant": "All 32-byte accounts.", "anchors": [{"file": "runtime/kreivo/src/xcm_config/communities.rs", "symbols": ["SignedByCommunityToPlurality"]}]}
{"id": "C75", "title": "Proxy superset means superset", "statement": "If one proxy type is declared a superset of another then every call allowed to the smaller type is allowed to the larger one; the relation is reflexive, transitive and has Any as the only top.", "quantifier": "all proxy types and calls", "why_tests_cant": "All calls.", "anchors": [{"file": "runtime/kreivo/src/impls.rs", "symbols": ["ProxyType::filter", "ProxyType::is_superset"]}]}
{"id": "C76", "title": "NonTransfer proxies cannot move funds", "statement": "A NonTransfer proxy can not execute any call that transfers funds or assets.", "quantifier": "all calls", "why_tests_cant": "All call variants.", "anchors": [{"file": "runtime/kreivo/src/impls.rs", "symbols": ["ProxyType::NonTransfer"]}]}
{"id": "C77", "title": "Restricted proxies stay inside their pallet", "statement": "CancelProxy, Assets, AssetOwner, AssetManager and Collator proxies are limited to the calls of their named area plus utility and multisig; AssetOwner and AssetManager share no asset call.", "quantifier": "all calls", "why_tests_cant": "All call variants.", "anchors": [{"file": "runtime/kreivo/src/impls.rs", "symbols": ["ProxyType::filter"]}]}
{"id": "C78", "title": "Scheduler privilege comparison is sound", "statement": "An origin may cancel or reschedule a task only if it equals the scheduling origin or is root; the comparison is reflexive and antisymmetric and never ranks a non-root origin above another.", "quantifier": "all origin pairs", "why_tests_cant": "All origins.", "anchors": [{"file": "runtime/kreivo/src/impls.rs", "symbols": ["EqualOrGreatestRootCmp"]}]}
{"id": "C79", "title": "The exported call list singles out exactly the calls outside five pallets", "statement": "The runtime's exported call filter contains a call exactly when it does not belong to the balances, treasury, utility, assets or proxy pallets. It is only exported: the pool is told the same of a transaction whatever its call.", "quantifier": "all calls", "why_tests_cant": "All call variants.", "anchors": [{"file": "runtime/kreivo/src/impls.rs", "symbols": ["RuntimeBlackListedCalls"]}, {"file": "runtime/kreivo/src/apis.rs", "symbols": ["validate_transaction"]}]}
{"id": "C80", "title": "Authentication challenges are fresh", "statement": "A pass challenge is accepted only if it is the hash of one of the last three blocks.", "quantifier": "all block numbers and challenges", "why_tests_cant": "All contexts incl. future ones.", "anchors": [{"file": "runtime/kreivo/src/configuration/system_support.rs", "symbols": ["UnincludedBlockHashChallenger::check_challenge"]}]}
{"id": "C81", "title": "Address lookup resolves communities by index and accounts by id", "statement": "Looking up an account id gives that account, a community index gives that community's account, everything else is refused, and unlookup then lookup is the identity.", "quantifier": "all addresses", "why_tests_cant": "All addresses.", "anchors": [{"file": "runtime/kreivo/src/configuration/system_support.rs", "symbols": ["CommunityLookup"]}]}
{"id": "C82", "title": "Each governance track is reachable only by its own origin", "statement": "Collective tracks have distinct ids, each origin maps to exactly its track and all other origins to none.", "quantifier": "all origins", "why_tests_cant": "All origins.", "anchors": [{"file": "runtime/kreivo/src/collective/tracks.rs", "symbols": ["tracks", "track_for"]}, {"file": "runtime/kreivo/src/governance/origins.rs", "symbols": ["Origin"]}]}
{"id": "C83", "title": "Only members submit community referenda", "statement": "A referendum on a community's track can only be submitted by root or by a signed member of exactly that community.", "quantifier": "all origins and tracks", "why_tests_cant": "All origins.", "anchors": [{"file": "runtime/kreivo/src/communities/governance.rs", "symbols": ["EnsureCommunityMember", "EnsureOriginToTrack"]}]}
{"id": "C84", "title": "Weight fees never decrease with weight and charge the scarcer resource", "statement": "The fee for a weight is monotone in both components and is the maximum of the two single-resource fees, zero only for negligible weight.", "quantifier": "all weights", "why_tests_cant": "All u64 pairs.", "anchors": [{"file": "runtime/kreivo/src/constants.rs", "symbols": ["WeightToFee", "RefTimeToFee", "ProofSizeToFee"]}]}
{"id": "C85", "title": "Contracts can only call plain transfers", "statement": "A contract-originated runtime call passes the filter only if it is a native transfer_allow_death.", "quantifier": "all calls", "why_tests_cant": "All calls.", "anchors": [{"file": "runtime/kreivo/src/contracts.rs", "symbols": ["AllowBalancesCall"]}]}
{"id": "C86", "title": "XCM weights bound unsupported instructions out", "statement": "Every XCM instruction the runtime does not support weighs the maximum, so no message containing it fits any limit, and asset-count dependent instructions grow with the number of assets up to the cap.", "quantifier": "all messages", "why_tests_cant": "All messages.", "anchors": [{"file": "runtime/kreivo/src/weights/xcm/mod.rs", "symbols": ["KreivoXcmWeight", "WeighAssets"]}]}
{"id": "C87", "title": "A voter's freeze is exactly the largest standing lock", "statement": "At all times the amount frozen for voting on an account, in each currency, equals the largest amount among the account's standing vote locks in that currency, so nothing stays frozen for someone without locks.", "quantifier": "all accounts, currencies and histories of votes, removals, unlocks, decision method changes", "why_tests_cant": "Depends on the order of votes over several polls and memberships.", "anchors": [{"file": "pallets/communities/src/functions.rs", "symbols": ["update_locks", "try_vote", "try_remove_vote"]}, {"file": "pallets/communities/src/lib.rs", "symbols": ["unlock"]}]}
{"id": "C88", "title": "A proxy cannot grant more than it has", "statement": "Whatever an account authorises through a proxy of some type, a proxy it adds or removes on that account is of a type that proxy type is declared a superset of.", "quantifier": "all proxy types, proxy tables and nested calls", "why_tests_cant": "Nested dispatches of any depth.", "anchors": [{"file": "runtime/kreivo/src/impls.rs", "symbols": ["ProxyType::is_superset", "ProxyType::filter"]}, {"file": "runtime/kreivo/src/lib.rs", "symbols": ["pallet_proxy"]}]}
{"id": "C89", "title": "Nesting never lets a restricted proxy act outside its type", "statement": "However calls are nested in batches, multisigs and proxies, everything a restricted proxy makes the account do is inside what its type allows.", "quantifier": "all calls of any nesting depth, all proxy tables", "why_tests_cant": "Nested dispatches of any depth.", "anchors": [{"file": "runtime/kreivo/src/impls.rs", "symbols": ["ProxyType::filter"]}, {"file": "runtime/kreivo/src/lib.rs", "symbols": ["pallet_proxy", "pallet_utility"]}]}
{"id": "C90", "title": "Collective decisions need their declared majorities at every moment", "statement": "At every moment of a referendum of the collective the required approval is at least 90% for root, canceller and killer and at least 50% (and the support 50%) for memberships; both start at 100% and only get weaker with time.", "quantifier": "all tracks and all moments", "why_tests_cant": "All elapsed times.", "anchors": [{"file": "runtime/kreivo/src/collective/tracks.rs", "symbols": ["tracks"]}]}
{"id": "C91", "title": "XCM weights cover the benchmarked cost", "statement": "An XCM message is charged at least the benchmarked cost of each of its instructions for every asset it handles, plus the weight its calls may use.", "quantifier": "all messages and holdings", "why_tests_cant": "All instruction sequences.", "anchors": [{"file": "runtime/kreivo/src/weights/xcm/mod.rs", "symbols": ["KreivoXcmWeight", "deposit_asset", "reserve_asset_deposited", "WeighAssets"]}]}
{"id": "C92", "title": "Only the relay chain and its executive body run XCM for free", "statement": "A message from another chain that is run pays for its whole weight, unless it explicitly asks for free execution and comes from the relay chain or its executive body; computed origins can not be used to pretend so.", "quantifier": "all messages and senders", "why_tests_cant": "All instruction sequences.", "anchors": [{"file": "runtime/kreivo/src/xcm_config.rs", "symbols": ["Barrier", "ParentOrParentsExecutivePlurality", "UniversalLocation"]}]}
{"id": "C93", "title": "An XCM message acts only as its sender", "statement": "Whatever the instructions, handlers and failures on the way, calls dispatched by a message have an origin derived from its sender: a parachain acts only as its own account or native origin, its inhabitants as no account, a relay chain account as the same account; nobody dispatches as root or as a community.", "quantifier": "all messages, senders and failure points", "why_tests_cant": "All instruction sequences and failure points.", "anchors": [{"file": "runtime/kreivo/src/xcm_config.rs", "symbols": ["XcmOriginToTransactDispatchOrigin", "LocationToAccountId", "XcmConfig"]}]}
{"id": "C94", "title": "A dispute can be settled as the resolver decides", "statement": "While a payment is under review, whatever split the resolver decides is carried out when they settle it; nothing a party does to their own balance can prevent it.", "quantifier": "all reachable states, resolver decisions and party balances", "why_tests_cant": "Depends on what the parties did with their free balance during the dispute.", "anchors": [{"file": "pallets/payments/src/lib.rs", "symbols": ["resolve_dispute", "settle_payment"]}]}
{"id": "C95", "title": "Every successful payments call announces itself exactly once", "statement": "A successful call emits exactly one event, the one naming what it did and to which payment; a failed call emits none; an automatic refund announces itself like a cancellation.", "quantifier": "all calls, origins, states and histories", "why_tests_cant": "All calls and failure points.", "anchors": [{"file": "pallets/payments/src/lib.rs", "symbols": ["pay", "release", "cancel", "request_refund", "dispute_refund", "resolve_dispute", "accept_and_pay", "request_payment"]}]}
{"id": "C96", "title": "On Kreivo only root settles disputes and the treasury collects", "statement": "On Kreivo resolve_dispute is refused for every origin but root, and moves exactly: each party's fee and the loser's 10% incentive to the treasury, and the sender's share to the sender, except that rests below the minimum of the asset may go along with the transfers that pay incentive and share, or be burned. Fees are those of the minimum the asset had when the payment was made.", "quantifier": "all origins, states and decisions", "why_tests_cant": "All reachable states.", "anchors": [{"file": "runtime/kreivo/src/payments.rs", "symbols": ["KreivoFeeHandler", "IncentivePercentage"]}, {"file": "pallets/payments/src/lib.rs", "symbols": ["resolve_dispute"]}]}
{"id": "C97", "title": "The beneficiary has two days to dispute a refund", "statement": "On Kreivo, after a refund request the beneficiary can dispute for two days (as the configuration comments), and no automatic refund happens before.", "quantifier": "all histories after the request, all chains of blocks", "why_tests_cant": "Unbounded histories.", "anchors": [{"file": "runtime/kreivo/src/payments.rs", "symbols": ["CancelBufferBlockLength"]}, {"file": "pallets/payments/src/lib.rs", "symbols": ["request_refund", "dispute_refund"]}]}
{"id": "C98", "title": "Only root and two chosen communities deploy contracts", "statement": "Contract code is uploaded only by root, on the treasury's account; contracts are instantiated only by root (as the treasury) and by communities 1 and 2 (as their own account); no signed account deploys anything.", "quantifier": "all origins", "why_tests_cant": "All origins.", "anchors": [{"file": "runtime/kreivo/src/contracts.rs", "symbols": ["UploadOrigin", "InstantiateOrigin"]}, {"file": "pallets/communities/src/origin.rs", "symbols": ["AsSignedByStaticCommunity"]}]}
{"id": "C99", "title": "Registering a pass costs the signer exactly the existential deposit", "statement": "Root and communities register passes for free; a signer pays exactly the existential deposit from their own account to the treasury; every other origin is refused.", "quantifier": "all origins", "why_tests_cant": "All origins.", "anchors": [{"file": "runtime/kreivo/src/configuration/system_support.rs", "symbols": ["CommunitiesDontDeposit", "RegisterOrigin", "NeverPays"]}]}
{"id": "C100", "title": "Only Kreivo's root spends from its treasury", "statement": "No origin of Kreivo but root, and no message of another chain, can make the treasury's account pay or act.", "quantifier": "all origins, senders and messages", "why_tests_cant": "All instruction sequences.", "anchors": [{"file": "runtime/kreivo/src/xcm_config/communities.rs", "symbols": ["AccountId32FromRelay"]}, {"file": "runtime/kreivo/src/contracts.rs", "symbols": ["UploadOrigin"]}, {"file": "runtime/kreivo/src/lib.rs", "symbols": ["TreasuryPalletId"]}]}
{"id": "C101", "title": "Automatic work leaves room for transactions", "statement": "Whatever hooks and transactions a block contains, normal transactions use at most three quarters of it, operational transactions always find a quarter, and the scheduler and message queue leave room for normal transactions.", "quantifier": "all blocks: any sequence of hook weights and transactions", "why_tests_cant": "All sequences of transactions and hooks.", "anchors": [{"file": "runtime/kreivo/src/configuration/system_support.rs", "symbols": ["RuntimeBlockWeights"]}, {"file": "runtime/kreivo/src/lib.rs", "symbols": ["MaximumSchedulerWeight", "MessageQueueServiceWeight", "MAXIMUM_BLOCK_WEIGHT"]}]}
{"id": "C102", "title": "Storage deposits are linear", "statement": "The deposit for any number of items and bytes is exactly 20 cents per item and a milli-cent per byte, without overflow or rounding, so deposits add up and more storage never costs less.", "quantifier": "all u32 numbers of items and bytes, both relay chains", "why_tests_cant": "All u32 pairs.", "anchors": [{"file": "runtime/kreivo/src/constants.rs", "symbols": ["deposit"]}, {"file": "runtime/runtime-constants/src/lib.rs", "symbols": ["deposit"]}]}
{"id": "C103", "title": "The balances API lists exactly what an account has", "statement": "query_account_balances never fails and lists the account's free native balance and each of its assets exactly once, under distinct locations, with exact amounts, and nothing zero.", "quantifier": "all accounts and balances", "why_tests_cant": "All sets of assets.", "anchors": [{"file": "runtime/kreivo/src/apis.rs", "symbols": ["query_account_balances"]}, {"file": "common/src/multilocation_asset_id.rs", "symbols": ["convert_back"]}]}
{"id": "C104", "title": "Collators are administered only by root and the relay chain's staking admin", "statement": "Privileged collator operations are accepted only from root or from the voice of the relay chain's Defense body, and a message gets there only if the relay chain or that body sent it.", "quantifier": "all origins, senders and messages", "why_tests_cant": "All instruction sequences and failure points.", "anchors": [{"file": "runtime/kreivo/src/lib.rs", "symbols": ["CollatorSelectionUpdateOrigin", "StakingAdminBodyId"]}]}
{"id": "C105", "title": "Messages move assets, they do not create them", "statement": "Whatever messages other chains send and wherever they fail, and leaving aside what calls they dispatch with Transact do (C93 says as whom those run), the amount of an asset on Kreivo (balances plus trapped assets) changes exactly by what was destroyed or sent away and by what was deposited by a location accepted as that asset's reserve; only the asset's own reserve is so accepted.", "quantifier": "all sequences of messages: any senders, instructions, nesting, failures, charges and refunds", "why_tests_cant": "All instruction sequences and failure points.", "anchors": [{"file": "runtime/kreivo/src/xcm_config.rs", "symbols": ["AssetTransactors", "IsReserve", "Trader", "AssetTrap"]}]}
{"id": "C106", "title": "A message spends only from accounts of its sender", "statement": "Whatever messages do, apart from the calls they dispatch with Transact (C93 says as whom those run), an account that belongs to none of the senders never loses anything; a parachain owns exactly its sovereign account and what is inside a parachain owns nothing.", "quantifier": "all sequences of messages, accounts and currencies", "why_tests_cant": "All instruction sequences and failure points.", "anchors": [{"file": "runtime/kreivo/src/xcm_config.rs", "symbols": ["LocationToAccountId", "AssetTransactors"]}]}
{"id": "C107", "title": "No message of another chain stops the chain", "statement": "Executing messages of other chains never panics.", "quantifier": "all sequences of messages of other chains", "why_tests_cant": "All instruction sequences.", "anchors": [{"file": "common/src/multilocation_asset_id.rs", "symbols": ["convert"]}, {"file": "runtime/kreivo/src/xcm_config.rs", "symbols": ["AssetTransactors"]}]}
{"id": "C108", "title": "Trapped assets wait for their owner", "statement": "Whatever a message still holds when it ends is trapped for its origin (its sender, if it cleared it); only messages of that origin, or of a location it is inside of, can claim it; and a claim returns exactly what was trapped, once.", "quantifier": "all sequences of messages and trapped assets", "why_tests_cant": "All instruction sequences and failure points.", "anchors": [{"file": "runtime/kreivo/src/xcm_config.rs", "symbols": ["AssetTrap", "AssetClaims"]}]}
{"id": "C109", "title": "Payments on Kreivo never collide", "statement": "In any history of blocks, hooks and extrinsics on Kreivo, every payment is the only one with its id and is found by it, an accepted request pays whoever requested it, and the scheduler cancels only the refund it was asked to cancel.", "quantifier": "all histories of blocks and extrinsics, any calls and batches", "why_tests_cant": "All schedules of calls over blocks.", "anchors": [{"file": "runtime/kreivo/src/payments.rs", "symbols": ["PaymentId"]}, {"file": "pallets/payments/src/lib.rs", "symbols": ["PaymentParties", "create_payment", "accept_and_pay"]}]}
{"id": "C110", "title": "Votes in the collective count once, with the member's rank, and are all counted", "statement": "Only a member of rank one or more votes on an ongoing referendum of the collective; the vote counts as much as the member's rank and replaces the member's earlier one, and the tally of a referendum is always the sum of the votes on record, as long as no more than 65537 accounts vote on it (then the sum fits the counters). Ranks change only by a root call; a new community's account gets a seat of rank 0, which does not vote.", "quantifier": "all histories of calls, scheduled calls and referenda with at most 65537 voters on one referendum", "why_tests_cant": "All orders of votes, changed votes and changes of rank.", "anchors": [{"file": "runtime/kreivo/src/collective/mod.rs", "symbols": ["KreivoCollectiveInstance", "MinRankOfClass", "VoteWeight"]}, {"file": "pallets/communities-manager/src/lib.rs", "symbols": ["RankedCollective"]}]}
{"id": "C111", "title": "Nothing acts as root without a decision of the collective", "statement": "No call runs as root, or as another privileged origin, unless the collective approved a proposal for this origin or for root; an approved proposal had its deposit, its preparation and confirmation periods, at least one vote and nine tenths of the voting weight (one half to create memberships); this share is exact up to a weight of a billion, and beyond that up to the rounding of fractions, as long as no more than 65537 accounts vote on one referendum.", "quantifier": "all histories from a chain without referenda", "why_tests_cant": "A safety property of every history; tests run single referenda.", "anchors": [{"file": "runtime/kreivo/src/collective/governance.rs", "symbols": ["KreivoReferendaInstance"]}, {"file": "runtime/kreivo/src/collective/tracks.rs", "symbols": ["TrackInfo"]}, {"file": "runtime/kreivo/src/governance/origins.rs", "symbols": ["pallet_custom_origins"]}]}
{"id": "C112", "title": "The collective can always act", "statement": "Whatever the state of the chain, members of the collective who agree can get a proposal for any of its tracks approved.", "quantifier": "all chains and histories", "why_tests_cant": "Liveness from every reachable state, including unusual genesis states.", "anchors": [{"file": "runtime/kreivo/src/collective/mod.rs", "symbols": ["AddOrigin", "PromoteOrigin"]}, {"file": "chain-spec-generator/src/spec/local.rs", "symbols": ["genesis"]}]}
{"id": "C113", "title": "Approved proposals are carried out", "statement": "The call of an approved referendum is scheduled, with the origin it asked for and no earlier than the enactment period allows, and stays scheduled until its time unless root cancels it.", "quantifier": "all histories with referenda of the collective and of communities", "why_tests_cant": "Depends on what other referenda have scheduled.", "anchors": [{"file": "runtime/kreivo/src/collective/governance.rs", "symbols": ["Scheduler"]}, {"file": "runtime/kreivo/src/communities/governance.rs", "symbols": ["Scheduler"]}]}
{"id": "C114", "title": "A community acts only by its own approved referendum", "statement": "Before root has acted, a call scheduled to run as a community is the call of an approved referendum of this community, or one of the calls batched there, and runs as the whole community; the referendum had its deposit and passed under the track of the community, and on the track every community is registered with a member of the community voted for it.", "quantifier": "all histories", "why_tests_cant": "Any interleaving of votes, referenda, memberships changing hands and track changes.", "anchors": [{"file": "runtime/kreivo/src/communities/governance.rs", "symbols": ["CommunityReferendaInstance", "EnsureCommunityMember"]}, {"file": "pallets/communities-manager/src/lib.rs", "symbols": ["default_tack"]}]}
{"id": "C115", "title": "A referendum of a community needs a quorum", "statement": "On the track communities are registered with, a proposal passes only if a fixed part of the community supports it.", "quantifier": "all communities, tallies and moments of the decision period", "why_tests_cant": "All numbers of members.", "anchors": [{"file": "pallets/communities-manager/src/lib.rs", "symbols": ["default_tack"]}, {"file": "pallets/communities/src/impls.rs", "symbols": ["support"]}]}
{"id": "C116", "title": "Calls are charged for the storage they read", "statement": "unlock is charged for at least as many storage reads as it makes, however many votes the account has locked.", "quantifier": "all reachable states and accounts", "why_tests_cant": "Depends on how many locks an account has gathered over its history.", "anchors": [{"file": "pallets/communities/src/functions.rs", "symbols": ["update_locks"]}, {"file": "runtime/kreivo/src/weights/pallet_communities.rs", "symbols": ["unlock"]}]}
{"id": "C117", "title": "Every call that can succeed fits in a block", "statement": "Every call of the communities, communities-manager and payments pallets that can succeed, at the limits of its parameters and wrapped in any number of dispatch_as_account calls that decodes, fits in a block that has run no more than its opening hooks, and what governance alone may call fits what the scheduler may use; wrapping a call adds to its weight and no call is free.", "quantifier": "all calls, parameters, lengths up to a mebibyte (128 KiB for the manager), base weights up to a millisecond", "why_tests_cant": "Sizes at and beyond every limit.", "anchors": [{"file": "runtime/kreivo/src/weights/pallet_communities_manager.rs", "symbols": ["create_memberships"]}, {"file": "runtime/kreivo/src/weights/pallet_payments.rs", "symbols": ["pay"]}, {"file": "runtime/kreivo/src/configuration/system_support.rs", "symbols": ["RuntimeBlockWeights"]}, {"file": "pallets/communities/src/lib.rs", "symbols": ["dispatch_as_account"]}]}
{"id": "C118", "title": "A signed transaction takes effect at most once", "statement": "A signed transaction that was included is never included again: not in the same block, not later, not after upgrades or balance changes; transactions of an account are included in the order of their nonces; a transaction with an era is not included after it.", "quantifier": "all transactions, and all histories of transactions, blocks, upgrades, removed and created accounts and balance changes", "why_tests_cant": "A replay can come at any later point of any history.", "anchors": [{"file": "runtime/kreivo/src/lib.rs", "symbols": ["SignedExtra"]}, {"file": "runtime/kreivo/src/configuration/system_support.rs", "symbols": ["UnincludedBlockHashChallenger", "check_challenge"]}]}
{"id": "C119", "title": "A transaction pays the fee for what it used, once, to the treasury or the author", "statement": "An included transaction costs its payer exactly the fee for the weight it used, never more than the fee for the weight it declared, in the native currency to the treasury or in a sufficient asset, at the ratio of the minimum balances, to the author of the block; nothing is burned unless the receiver cannot hold it; the payer keeps the minimum balance and what is frozen; nobody else pays; gas of a membership or a call without fee costs nothing; the payer of a session key is its pass account.", "quantifier": "all balances, fees, assets, payers, and whatever the call does in between", "why_tests_cant": "All amounts and all effects of the call.", "anchors": [{"file": "runtime/kreivo/src/lib.rs", "symbols": ["ChargeTransaction", "SignedExtra"]}, {"file": "runtime/kreivo/src/configuration/monetary_stuff.rs", "symbols": ["OnChargeTransaction", "OnChargeAssetTransaction"]}, {"file": "runtime/common/src/impls.rs", "symbols": ["AssetsToBlockAuthor", "handle_credit"]}]}
{"id": "C120", "title": "Full support of a poll means the support of the whole community", "statement": "Support is 100% exactly if all of the electorate said aye: all memberships, all ranks, or all of the currency.", "quantifier": "all reachable states and tallies, all decision methods", "why_tests_cant": "Depends on all members, ranks and issuance.", "anchors": [{"file": "pallets/communities/src/types.rs", "symbols": ["max_support"]}, {"file": "pallets/communities/src/impls.rs", "symbols": ["support", "from_requirements"]}]}
{"id": "C121", "title": "An XCM message pays exactly for the weight it uses", "statement": "Weight bought by a message costs its fee, in the relay chain's token or at the ratio of the minimum balances in a sufficient asset, at most the offer and at least the asset's minimum; what is refunded is for weight not used, and is never more than was paid; what is not refunded goes to the treasury; what an executed message paid covers the fee for the weight it used.", "quantifier": "all messages, prices, assets, call weights, failures and orders of instructions", "why_tests_cant": "All programs of instructions, including error handlers, appendices and repeated refunds.", "anchors": [{"file": "runtime/kreivo/src/xcm_config.rs", "symbols": ["Traders", "XcmConfig"]}, {"file": "runtime/kreivo/src/configuration/monetary_stuff.rs", "symbols": ["WeightToFee"]}]}
{"id": "C122", "title": "Only root creates assets, and existing assets are left alone", "statement": "An asset comes into being only if root creates it. Choosing an asset as a community's way to decide never changes an asset that exists: its minimum balance and its roles change only by calls of root or its owner.", "quantifier": "all states, assets, origins and calls, including calls dispatched as a community", "why_tests_cant": "Every call of every pallet by every origin, nested to any depth.", "anchors": [{"file": "runtime/kreivo/src/configuration/monetary_stuff.rs", "symbols": ["CreateOrigin", "ForceOrigin"]}, {"file": "pallets/communities/src/lib.rs", "symbols": ["set_decision_method"]}]}
{"id": "C123", "title": "A community that decides by a new asset gets to use it", "statement": "An asset brought into being by choosing it as a community's way to decide belongs to that community, so that its members can come to hold it and vote; units of it are issued only by its issuer.", "quantifier": "all histories of calls, registrations and changes elsewhere", "why_tests_cant": "Unbounded histories by arbitrary origins.", "anchors": [{"file": "pallets/communities/src/lib.rs", "symbols": ["set_decision_method"]}, {"file": "pallets/communities/src/functions.rs", "symbols": ["community_account"]}]}
{"id": "C124", "title": "A community decides who its members are", "statement": "Who becomes a member of a community does so with the consent of the community, by a call with authority over it, and who ceases to be a member was removed by it or gave the membership up.", "quantifier": "all states, accounts, communities, origins and calls, including calls dispatched as a community", "why_tests_cant": "Every call of three pallets by every origin, nested to any depth.", "anchors": [{"file": "pallets/communities-manager/src/lib.rs", "symbols": ["register"]}, {"file": "pallets/communities/src/lib.rs", "symbols": ["add_member", "remove_member", "dispatch_as_account"]}, {"file": "runtime/kreivo/src/communities/memberships.rs", "symbols": ["CommunityMembershipsInstance"]}]}
{"id": "C125", "title": "Every member's membership was made by create_memberships and paid for", "statement": "A community's members hold memberships that were made by create_memberships and bought at their price from the treasury; adding a member uses one of those up.", "quantifier": "all states, communities, items and calls", "why_tests_cant": "Every call by every origin in every state.", "anchors": [{"file": "pallets/communities-manager/src/lib.rs", "symbols": ["create_memberships", "register"]}, {"file": "pallets/communities/src/lib.rs", "symbols": ["add_member", "dispatch_as_account"]}, {"file": "runtime/kreivo/src/communities/memberships.rs", "symbols": ["CreateOrigin"]}]}
{"id": "C126", "title": "A community with memberships left can add a member", "statement": "As long as the account of a community holds memberships to give out, add_member with authority over the community succeeds; nobody outside the community can prevent it.", "quantifier": "all states, communities and accounts, and all calls of outsiders", "why_tests_cant": "All memberships the account may hold, in any order.", "anchors": [{"file": "pallets/communities/src/lib.rs", "symbols": ["add_member"]}]}
{"id": "C127", "title": "One proposal at a time is decided on a track", "statement": "The collective decides at most one referendum at a time on each of its tracks, and a community at most as many as its track allows, which is one unless it chose otherwise; a referendum that has its deposit and was prepared begins to be decided as soon as its turn is free.", "quantifier": "all histories of calls, scheduled calls, servicing and time, all tracks and referenda", "why_tests_cant": "Every interleaving of submissions, deposits, decisions and cancellations on every track.", "anchors": [{"file": "runtime/kreivo/src/collective/tracks.rs", "symbols": ["tracks"]}, {"file": "runtime/kreivo/src/communities/governance.rs", "symbols": ["Config"]}, {"file": "pallets/communities-manager/src/lib.rs", "symbols": ["register", "default_tack"]}]}
{"id": "C128", "title": "Referenda are decided by present members", "statement": "The votes that decide a referendum of the collective or of a community are those of accounts that are members of it when it is decided.", "quantifier": "all histories of votes, changes of membership and referenda", "why_tests_cant": "Every order in which members vote, leave, are removed or demoted, and referenda are decided.", "anchors": [{"file": "runtime/kreivo/src/collective/mod.rs", "symbols": ["Config"]}, {"file": "pallets/communities/src/lib.rs", "symbols": ["remove_member", "vote"]}, {"file": "pallets/communities/src/functions.rs", "symbols": ["try_vote"]}]}
{"id": "C129", "title": "Assets sent away go through the chain that keeps them", "statement": "When an account or a community sends assets to another chain and lets Kreivo choose the way, assets issued on Kreivo are put on the destination's account here and the destination is told so; for every other asset the message that takes it from Kreivo's account goes to the chain that keeps it (its own reserve), which passes it on to the destination.", "quantifier": "all callers, destinations, assets, amounts and states of the chain", "why_tests_cant": "All locations and all pairs of assets; tests use a few well-known ones.", "anchors": [{"file": "runtime/kreivo/src/xcm_config.rs", "symbols": ["Reserves", "ReserveAssetsFrom", "XcmConfig", "XcmRouter"]}]}
{"id": "C130", "title": "Sending assets takes exactly what is sent", "statement": "A call that sends assets to another chain takes from the caller's account exactly the amounts it names (a rest below the least balance may go with them), pays the destination's account here exactly what the destination is told, changes no other account, traps nothing, charges nothing for delivery, and puts every asset in a message to a chain that can be reached; messages cannot be executed by a call and nothing is teleported.", "quantifier": "all callers, calls, destinations, ways to travel, assets, amounts and states of the chain", "why_tests_cant": "All combinations of ways to travel, of assets and balances.", "anchors": [{"file": "runtime/kreivo/src/xcm_config.rs", "symbols": ["XcmRouter", "XcmConfig", "CanExecuteXcmTransactions"]}]}
{"id": "C131", "title": "Names in messages mean the same on both sides", "statement": "Every location that Kreivo names in a message to another chain means there what it means here, different things get different names, and every asset that Kreivo keeps can be named to the relay chain and to every parachain.", "quantifier": "all locations and all targets up to two levels up", "why_tests_cant": "Locations are unbounded combinations of junctions.", "anchors": [{"file": "runtime/kreivo/src/xcm_config.rs", "symbols": ["UniversalLocation"]}]}
{"id": "C132", "title": "Sending assets never stops the chain", "statement": "No call that sends or claims assets makes the runtime panic.", "quantifier": "all callers, calls and states of the chain", "why_tests_cant": "All locations of assets.", "anchors": [{"file": "common/src/multilocation_asset_id.rs", "symbols": ["convert"]}, {"file": "runtime/kreivo/src/xcm_config.rs", "symbols": ["FungiblesTransactor"]}]}
{"id": "C133", "title": "Trapped assets are got back by their owner, once", "statement": "Claiming assets takes exactly one trap of the caller with exactly the claimed assets, pays exactly them to the beneficiary and changes nothing else; whatever is trapped under the name of an account or a community can be claimed by it.", "quantifier": "all callers, traps, beneficiaries and states of the chain", "why_tests_cant": "All contents of traps and all states of balances.", "anchors": [{"file": "runtime/kreivo/src/xcm_config.rs", "symbols": ["XcmConfig", "CanExecuteXcmTransactions"]}]}
{"id": "C134", "title": "Units of an asset move only by the hand of their holder or the asset's admin", "statement": "Among the calls that create assets, name who runs them, mint, burn, transfer, force transfers and destroy (approvals, freezing and giving an account up are the subject of C200-C203), one leaves an account with fewer units of an asset only if the account itself transferred them, the asset's admin burned or moved them, or root or the owner destroyed the asset; a transfer moves exactly the amount named (or all, if the rest would be below the minimum) to the account named; and by these calls the balances of an asset keep adding up to its issuance.", "quantifier": "all callers, calls (also nested in dispatch_as_account), assets, accounts and histories of calls", "why_tests_cant": "All histories and all amounts around the minimum balance.", "anchors": [{"file": "runtime/kreivo/src/configuration/monetary_stuff.rs", "symbols": ["impl pallet_assets::Config<KreivoAssetsInstance> for Runtime"]}]}
{"id": "C135", "title": "Seats in the collective change only as described", "statement": "Only root promotes, demotes, removes and exchanges members of the collective; each does exactly that (one rank up or down, leaving at rank 0, removal only up to the named rank, exchange at the same rank) and touches nobody else; apart from these only accounts of newly registered communities get a seat, of rank 0.", "quantifier": "all origins, members, ranks, calls and steps of the chain", "why_tests_cant": "All histories and all ranks.", "anchors": [{"file": "runtime/kreivo/src/collective/mod.rs", "symbols": ["impl pallet_ranked_collective::Config<KreivoCollectiveInstance> for Runtime"]}, {"file": "pallets/communities-manager/src/lib.rs", "symbols": ["register"]}]}
{"id": "C136", "title": "A community's name is text and is kept as the name of its track", "statement": "A community is registered only under a name that is well-formed UTF-8, every such name is accepted, and the name stays readable as the name of the community's track.", "quantifier": "all names, also overlong and truncated encodings, all other parameters", "why_tests_cant": "All byte strings.", "anchors": [{"file": "pallets/communities-manager/src/lib.rs", "symbols": ["register"]}]}
{"id": "C137", "title": "Referenda leave time to vote and come to an end", "statement": "The collective approves nothing within half an hour of its being proposed, rejects only after four days of deciding, and lets a proposal time out only if its decision has not begun two days after submission (a community: the decision period of its track, and two weeks). A referendum past its decision period that is serviced, and serviced again after the confirmation period, is over, however votes move in between.", "quantifier": "all histories of calls, votes, services and moments", "why_tests_cant": "All schedules of votes and services.", "anchors": [{"file": "runtime/kreivo/src/collective/tracks.rs", "symbols": ["TracksInfo"]}, {"file": "runtime/kreivo/src/collective/governance.rs", "symbols": ["UndecidingTimeout"]}, {"file": "runtime/kreivo/src/communities/governance.rs", "symbols": ["UndecidingTimeout"]}]}
{"id": "C138", "title": "Assets sent to Kreivo arrive, less the fee", "statement": "When a chain sends an asset it is a reserve of, and what is offered for the fee covers the price, the beneficiary's balance grows by exactly what was sent less the price, the treasury's by the price, and nothing else changes. If the price is not covered, or the beneficiary cannot take it, what was sent (less the price, if it was paid) is trapped for the sender and no other balance changes.", "quantifier": "all assets, amounts, beneficiaries, reserves, balances and prices", "why_tests_cant": "All amounts and balances, at every boundary.", "anchors": [{"file": "runtime/kreivo/src/xcm_config.rs", "symbols": ["Trader", "IsReserve", "AssetTransactors", "Barrier", "LocationToAccountId"]}]}
{"id": "C139", "title": "Messages withdraw, transfer and deposit exactly what they name", "statement": "A message withdraws an amount exactly when its origin's account has as much; that account then has exactly as much less (a rest below the least balance is lost) and the message holds it. A transfer gives the receiver exactly what it takes from the sender, up to such a rest. A deposit gives the receiver exactly what the message no longer holds.", "quantifier": "all machine states, assets, amounts, origins and receivers", "why_tests_cant": "All amounts, at every boundary of balances.", "anchors": [{"file": "runtime/kreivo/src/xcm_config.rs", "symbols": ["AssetTransactors", "LocationToAccountId"]}]}
{"id": "C140", "title": "Deposits of referenda are given back, and lost only by a kill", "statement": "Proposing to the collective reserves one unit (to a community nothing), the decision deposit is exactly the track's. Once a referendum is over, its decision deposit is given back in full to whoever placed it, once, at anybody's request; the one for proposing is given back exactly if the referendum was approved or cancelled, and stays reserved for good if it was rejected or timed out. Nothing is lost otherwise, except when an ongoing referendum is killed by those who may: exactly its deposits go to the treasury.", "quantifier": "all histories of proposals, deposits, refunds, endings, cancellations and kills in both instances, interleaved with other pallets' reservations", "why_tests_cant": "Refunds take from a pot shared by all reservations of an account; that they are covered needs an invariant over all histories.", "anchors": [{"file": "runtime/kreivo/src/collective/governance.rs", "symbols": ["SubmissionDeposit", "Slash", "KillOrigin", "CancelOrigin"]}, {"file": "runtime/kreivo/src/communities/governance.rs", "symbols": ["SubmissionDeposit", "Slash", "KillOrigin"]}, {"file": "runtime/kreivo/src/collective/tracks.rs", "symbols": ["decision_deposit"]}]}
{"id": "C141", "title": "Calls on assets and by proxies fit a block and are charged for what they touch", "statement": "Every call of the assets pallet (with strings within the limit) fits in a block that has done no more than its opening hooks as a transaction of up to a megabyte, and so does every call of the proxy pallet unless the call it carries is itself too large; carrying a call is charged on top of it. None of them is free, and each pays for every stored item it may read and write. False of transfer_all, which is charged what block is: less than half of a transfer that moves the same.", "quantifier": "all calls of both pallets, all carried weights, all lengths of strings and transactions", "why_tests_cant": "A benchmark covers the sizes it was run with; an under-charged call shows only when blocks overrun.", "anchors": [{"file": "runtime/kreivo/src/weights/pallet_assets.rs", "symbols": ["transfer_all", "destroy_accounts", "destroy_approvals"]}, {"file": "runtime/kreivo/src/weights/pallet_proxy.rs", "symbols": ["proxy", "proxy_announced"]}, {"file": "runtime/kreivo/src/configuration/monetary_stuff.rs", "symbols": ["RemoveItemsLimit", "AssetsStringLimit"]}, {"file": "runtime/kreivo/src/lib.rs", "symbols": ["MaxProxies", "MaxPending"]}]}
{"id": "C142", "title": "Fees follow the use of blocks, slowly, and never vanish", "statement": "The multiplier on the weight fee rises exactly after a block in which normal transactions used more than a quarter of the time or of the proof they may use, and falls exactly after one in which they used less than a quarter of both, never below a tenth. No sequence of blocks, however it is filled, makes it grow faster than 57 millionths or fall faster than 19 millionths per block: in 7200 blocks a fee grows by at most half and falls by at most a seventh. Blocks at most an eighth full bring it back to a tenth.", "quantifier": "all multipliers, all amounts used by a block, all sequences of blocks, all transactions", "why_tests_cant": "An attacker chooses how blocks are filled; the bound is about every sequence.", "anchors": [{"file": "runtime/kreivo/src/configuration/monetary_stuff.rs", "symbols": ["FeeMultiplierUpdate", "SlowAdjustingFeeUpdate"]}, {"file": "runtime/kreivo/src/configuration/system_support.rs", "symbols": ["RuntimeBlockWeights"]}]}
{"id": "C143", "title": "Scheduled refunds are carried out, late at worst, once, and do not crowd each other out", "statement": "A refund that was asked for is carried out in its block whenever the weights set aside for the block's tasks fit in the scheduler's share of the block, which a full agenda of fifty refunds does. However overloaded the scheduler is, a refund runs within as many blocks as there are tasks in the agendas up to its own, is never given up, and never runs twice; the scheduler never takes more than its share. At most 37 refunds can be asked for in one block, by any mix of transactions, scheduled calls and messages from other chains, so a refund is refused for want of room only if at least fourteen other tasks are already scheduled for its block.", "quantifier": "all agendas, all backlogs left by earlier blocks, all tasks scheduled for later blocks, all weights of the scheduler within its limits, all fillings of a block", "why_tests_cant": "Overload depends on every task that anyone has scheduled and on the order of service over many blocks.", "anchors": [{"file": "runtime/kreivo/src/lib.rs", "symbols": ["MaximumSchedulerWeight", "MaxScheduledPerBlock", "MessageQueueServiceWeight"]}, {"file": "pallets/payments/src/lib.rs", "symbols": ["request_refund"]}, {"file": "runtime/kreivo/src/weights/pallet_payments.rs", "symbols": ["request_refund", "cancel"]}]}
{"id": "C144", "title": "Referenda are stopped from outside only by the authority named for it", "statement": "A referendum of the collective can be cancelled only by the referendum canceller and killed only by the referendum killer, and a referendum of a community only by root; nobody else, not even root for the former, can do it directly. On every chain history a cancelled or killed referendum was ongoing when a scheduled call of such an origin ran, and by then the collective had approved another proposal for that origin or for root. Whatever is put on the agenda is for a later block, apart from the calls of a batch that is due.", "quantifier": "all chain histories: all calls from outside, scheduled calls, votes, service of referenda; all referenda", "why_tests_cant": "That no sequence of calls, wrapped calls and scheduled calls reaches the authority to stop a vote cannot be established by trying some.", "anchors": [{"file": "runtime/kreivo/src/collective/governance.rs", "symbols": ["CancelOrigin", "KillOrigin"]}, {"file": "runtime/kreivo/src/communities/governance.rs", "symbols": ["CancelOrigin", "KillOrigin"]}, {"file": "runtime/kreivo/src/governance/origins.rs", "symbols": ["ReferendumCanceller", "ReferendumKiller"]}]}
{"id": "C145", "title": "A refund that was asked for is carried out in time, once, and only then", "statement": "When the sender of a payment has asked for a refund, then whatever else happens on the chain, short of root taking the refund off the agenda, of this payment's id being given to another sender (C22) and of a ledger that refuses the money, the refund has ended, by dispute, by return, by payment after all, or by the scheduler giving everything back, when the scheduler is done in the block of the deadline, or, if the scheduler is overloaded, within as many blocks as there are tasks waiting up to it. The scheduler never gives back money early, never after a dispute, never twice, and never for a payment whose sender did not ask.", "quantifier": "all chain histories of payments and scheduler together: all calls by everybody, all blocks, tasks of others that are scheduled and taken away, all weights of the scheduler", "why_tests_cant": "The promise spans two pallets and any number of blocks: what is on the agendas when the deadline comes depends on the whole history.", "anchors": [{"file": "pallets/payments/src/lib.rs", "symbols": ["request_refund", "dispute_refund", "cancel"]}, {"file": "runtime/kreivo/src/lib.rs", "symbols": ["impl pallet_scheduler::Config for Runtime"]}, {"file": "runtime/kreivo/src/payments.rs", "symbols": ["CancelBufferBlockLength"]}]}
{"id": "C146", "title": "Nobody acts for the accounts the runtime keeps for itself", "statement": "In the name of the treasury, the collators' pot, the payments pallet or XCM's checking account no signed call is ever dispatched: not by proxies, announced or not, not through batches, multisigs, derivatives, passes or communities, in however long and nested a history of calls of others, even if those add proxies as they go; and these accounts never get a proxy. The same holds of every account without key, proxies and derivation.", "quantifier": "all histories of signed calls with nested calls, all changes of proxies, approvals, announcements, session keys and authority on the way", "why_tests_cant": "Nesting and histories are unbounded and proxies change in the middle of them.", "anchors": [{"file": "runtime/kreivo/src/lib.rs", "symbols": ["pallet_proxy::Config", "pallet_multisig::Config", "pallet_utility::Config", "TreasuryPalletId", "PotId"]}, {"file": "runtime/kreivo/src/impls.rs", "symbols": ["ProxyType"]}, {"file": "pallets/communities/src/lib.rs", "symbols": ["dispatch_as_account"]}]}
{"id": "C147", "title": "The treasury's pallet pays nobody and burns nothing", "statement": "Whatever calls of the treasury's pallet anybody makes, root included, and however many blocks and spending periods pass, the treasury keeps what it had at genesis and all that is paid in: no origin can have a payment approved. Were something approved by an older runtime, it would be paid at most once, in the approved amount and to the approved beneficiary, in the first block of a period of six days and in no other.", "quantifier": "all histories of calls of the treasury's pallet by all origins, blocks and payments in", "why_tests_cant": "Histories are unbounded.", "anchors": [{"file": "runtime/kreivo/src/lib.rs", "symbols": ["pallet_treasury::Config", "SpendPeriod", "PayoutSpendPeriod"]}]}
{"id": "C148", "title": "Nobody is restricted when acting for themselves", "statement": "Any call whatsoever that somebody signs and sends for themselves is dispatched in their name and under no filter, and so is every call in the batches it consists of, however deep; only what is in a batch_all within a batch_all is refused.", "quantifier": "all calls, all nestings of batches", "why_tests_cant": "Nesting is unbounded.", "anchors": [{"file": "runtime/kreivo/src/configuration/system_support.rs", "symbols": ["frame_system::Config"]}, {"file": "runtime/kreivo/src/apis.rs", "symbols": ["validate_transaction"]}, {"file": "runtime/kreivo/src/lib.rs", "symbols": ["pallet_utility::Config"]}]}
{"id": "C149", "title": "Granted funds stay with the account until they are released", "statement": "What an account was granted by vested transfers and is not released yet stays in the account, free, reserved or held, whatever transfers, fees, reserves, holds, further grants, mergers of schedules and releases happen; only what somebody is entitled to take from its reserves or holds can be missing, and root can lift a schedule. After anyone's call of vest exactly the unreleased part is locked, and nothing once every schedule is over. An account has at most 28 schedules, each granted by a vested transfer of at least 100 cents.", "quantifier": "all histories of vested transfers, releases, mergers, transfers, fees, reserves, holds and removals, by all accounts, in all blocks", "why_tests_cant": "Schedules overlap and are merged in any order, over any number of blocks.", "anchors": [{"file": "runtime/kreivo/src/configuration/monetary_stuff.rs", "symbols": ["pallet_vesting::Config", "MinVestedTransfer", "pallet_balances::Config"]}]}
{"id": "C150", "title": "The vesting lock holds back only transfers and reserves", "statement": "Unvested funds cannot be transferred or reserved, and can be used for everything else, fees in particular.", "quantifier": "all accounts, amounts, locks and reserves", "why_tests_cant": "The lock interacts with every other freeze and reserve.", "anchors": [{"file": "runtime/kreivo/src/configuration/monetary_stuff.rs", "symbols": ["UnvestedFundsAllowedWithdrawReasons", "pallet_vesting::Config", "pallet_transaction_payment::Config"]}]}
{"id": "C151", "title": "Merging schedules does not put off the release", "statement": "When two vesting schedules are merged, everything is released at the latest when both would have been over.", "quantifier": "all pairs of schedules, all blocks", "why_tests_cant": "Rounding depends on the amounts and the blocks left.", "anchors": [{"file": "runtime/kreivo/src/configuration/monetary_stuff.rs", "symbols": ["pallet_vesting::Config"]}]}
{"id": "C152", "title": "Only a payment's own text names it", "statement": "The only text that is read as a payment's id is the one the id is printed as, with or without its dash; other text is refused, or names no payment.", "quantifier": "all ids and all texts", "why_tests_cant": "There are more texts than can be listed, and several may stand for the same number.", "anchors": [{"file": "common/src/payment_id.rs", "symbols": ["PaymentId", "new", "from_number", "to_number", "encode", "to_bytes", "FromStr", "Display"]}]}
{"id": "C153", "title": "Stored data reads back as written", "statement": "Everything the communities and payments pallets store is decoded to the value that was encoded, whatever bytes follow; no other bytes decode to it; and it never takes more than the declared maximum of bytes. The same holds of asset ids, payment ids, community origins, verdicts and proxy types.", "quantifier": "all values of all the stored types, all following bytes, all inputs", "why_tests_cant": "There are too many values, and undecodable data is lost without an error.", "anchors": [{"file": "common/src/multilocation_asset_id.rs", "symbols": ["FungibleAssetLocation", "Para", "NetworkId"]}, {"file": "common/src/payment_id.rs", "symbols": ["PaymentId"]}, {"file": "pallets/communities/src/types.rs", "symbols": ["CommunityInfo", "CommunityState", "DecisionMethod", "Vote", "Tally"]}, {"file": "pallets/communities/src/origin.rs", "symbols": ["RawOrigin", "Subset"]}, {"file": "pallets/payments/src/types.rs", "symbols": ["PaymentDetail", "PaymentState", "Fees", "Role", "DisputeResult"]}, {"file": "runtime/kreivo/src/impls.rs", "symbols": ["ProxyType"]}]}
{"id": "C154", "title": "Each key has its own entry", "statement": "Whatever was last written under a key of a storage map of the communities or payments pallet is what is read there; writing or removing under another key or in another map changes nothing, even when hashes of keys collide; walking the locks of an account meets exactly that account's; and the cancellations of two payments are named by hashes of different texts.", "quantifier": "all keys, values and raw storages, and all hash functions", "why_tests_cant": "Collisions cannot be found by trying keys.", "anchors": [{"file": "pallets/communities/src/lib.rs", "symbols": ["Info", "CommunityIdFor", "CommunityDecisionMethod", "CommunityVotes", "CommunityVoteLocks"]}, {"file": "pallets/payments/src/lib.rs", "symbols": ["Payment", "PaymentParties", "request_refund"]}, {"file": "pallets/communities/src/functions.rs", "symbols": ["update_locks"]}]}
{"id": "C155", "title": "A multisig acts only when enough of its signatories agree", "statement": "The account of a multisig acts only when at least as many different signatories as its threshold says have agreed to that very call since it was last executed or cancelled, the last of them giving the call itself; and it does act then: any two to a hundred accounts, and no others, can be the signatories, and any of them, in any order, as many as the threshold says, get a call executed at the last approval. The pallet holds of each account exactly the deposits of the open operations that account started; the deposit goes back whole to whoever started the operation when it is executed or cancelled, and nobody else can cancel it.", "quantifier": "all histories of approvals, executions and cancellations by all accounts, all sets of signatories, thresholds and calls", "why_tests_cant": "Approvals of any number of multisigs interleave in any order.", "anchors": [{"file": "runtime/kreivo/src/lib.rs", "symbols": ["pallet_multisig::Config", "DepositBase", "DepositFactor"]}]}
{"id": "C156", "title": "What a transaction will cost can be asked beforehand", "statement": "The fee the API answers for a transaction is what is taken for it, besides the tip, if it is included while the fee multiplier is the same; no more than that is paid in the end, whatever the call does and however much weight it uses. If it is included up to 7200 blocks later, the fee is at most half more (and two units) and at least six sevenths (less one unit). In another asset the same amount is taken, converted. With gas or for a call without fee nothing is taken. The answers to the different questions fit together.", "quantifier": "all signed transactions, all states of the chain, all calls and their effects, all uses of the blocks in between", "why_tests_cant": "The price of a transaction depends on every weight and length and on the use of all blocks before.", "anchors": [{"file": "runtime/kreivo/src/apis.rs", "symbols": ["query_info", "query_fee_details", "query_call_info", "query_weight_to_fee", "query_length_to_fee"]}, {"file": "runtime/kreivo/src/configuration/monetary_stuff.rs", "symbols": ["pallet_transaction_payment::Config"]}]}
{"id": "C157", "title": "Bonds of collators are reserved exactly, and come back", "statement": "At all times what collator selection has reserved of an account is exactly the account's bond if it is a candidate, and nothing otherwise; each bond is at least the minimum in force, and nobody is a candidate twice. More is reserved of an account only by its own call, and then the minimum bond or the amount it named.", "quantifier": "all reachable states of collator selection: any sequence of calls by anybody, blocks and sessions, whatever the balances and session keys", "why_tests_cant": "The bond of a candidate passes through many calls (raised, lowered, taken over, kicked, made invulnerable, minimum changed); tests follow a few.", "anchors": [{"file": "runtime/kreivo/src/lib.rs", "symbols": ["pallet_collator_selection::Config", "PotId", "MaxCandidates"]}]}
{"id": "C158", "title": "The highest bonds are chosen, and a place is lost only for a reason", "statement": "The collators of a session are all invulnerables and as many candidates as desired, if there are as many; nobody is chosen before a candidate with a higher bond. A candidate keeps place and bond until they leave or change the bond, the minimum is raised above their bond, they are made invulnerable, somebody offers a higher bond for their place, or a session begins when they made no block for six hours. Only accounts with session keys become candidates, by their own call.", "quantifier": "all reachable states of collator selection and all calls, blocks and sessions", "why_tests_cant": "The order of the candidates is kept by several calls that insert in different ways.", "anchors": [{"file": "runtime/kreivo/src/lib.rs", "symbols": ["pallet_collator_selection::Config", "MinEligibleCollators", "Period", "pallet_session::Config"]}]}
{"id": "C159", "title": "There is always somebody to make blocks", "statement": "If there are collators, then no call, block or session leaves none: whoever administers the collators cannot remove the last one by accident, no candidate leaving and no session that kicks the idle ones does.", "quantifier": "all reachable states of collator selection and all calls, blocks and sessions", "why_tests_cant": "Several calls check the number of eligible collators at different moments; without collators nobody is paid for blocks and nobody can be replaced.", "anchors": [{"file": "runtime/kreivo/src/lib.rs", "symbols": ["pallet_collator_selection::Config", "MinEligibleCollators", "CollatorSelectionUpdateOrigin"]}]}
{"id": "C160", "title": "A transaction goes in only where and while it was signed for", "statement": "A signed transaction is included only on the chain, under the runtime version and in the era it was signed for: one of another chain or of a fork never, one for another version not before the runtime changes, one with an era only in the blocks of its era; with everything as signed for, these checks let it pass.", "quantifier": "all transactions with or without fee, all states of the chain and all histories", "why_tests_cant": "A signature stays valid for ever; where and when it is presented is up to anybody.", "anchors": [{"file": "runtime/kreivo/src/lib.rs", "symbols": ["SignedExtra", "frame_system::CheckSpecVersion", "frame_system::CheckGenesis", "frame_system::CheckEra"]}]}
{"id": "C161", "title": "The generator makes the named chain or says which there are", "statement": "For kreivo and live the generator prints the embedded specification of the live chain, for kreivo-local and local that of the local chain, and for any other argument ending in .json the file of that name, raw or not as asked for. For anything else it prints nothing and names each of the four chains once.", "quantifier": "all arguments, all contents of files, all orders of the table of names", "why_tests_cant": "Arguments are arbitrary text, and the order of a hash map differs from run to run.", "anchors": [{"file": "chain-spec-generator/src/main.rs", "symbols": ["main"]}, {"file": "chain-spec-generator/src/spec/live/mod.rs", "symbols": ["chain_spec"]}]}
{"id": "C162", "title": "A local chain starts with the accounts, collators and keys it was given", "statement": "The genesis made for a local chain can be built exactly if no account, collator or key is named twice and there are at most 100 collators. Then each named account has 2^60 units, nobody else has any, the collators are the named ones without candidates, each with its own key, exactly these keys make the first blocks, and the chain has the given id.", "quantifier": "all lists of accounts and of collators with keys, all ids", "why_tests_cant": "The generator is run with one list; the claim is about what any list leads to.", "anchors": [{"file": "chain-spec-generator/src/spec/local.rs", "symbols": ["local_genesis", "chain_spec"]}, {"file": "chain-spec-generator/src/spec/mod.rs", "symbols": ["session_keys"]}]}
{"id": "C163", "title": "Deposits of proxies are reserved exactly and come back", "statement": "Of every account exactly the deposits for its proxies, its announcements and its pure accounts are reserved, besides what other pallets reserve; whoever removes them has everything back, and nothing else is touched.", "quantifier": "all histories of calls of the proxy pallet by all accounts, with any reserves of other pallets", "why_tests_cant": "Deposits are adjusted by differences and given back as far as possible; whether they match is a matter of the whole history.", "anchors": [{"file": "runtime/kreivo/src/lib.rs", "symbols": ["ProxyDepositBase", "ProxyDepositFactor", "AnnouncementDepositBase", "AnnouncementDepositFactor", "pallet_proxy::Config"]}]}
{"id": "C164", "title": "A delegate acts for an account only as named, and with a delay only after announcing the call", "statement": "Somebody acts for an account only as a proxy the account itself named in this way and has not removed since (a pure account: its spawner). At once act only proxies without a delay. One with a delay makes a call only if they announced this call at least the delay before, and neither withdrew it nor the account rejected it since; each announcement is good for one call, and the account can reject it at any time.", "quantifier": "all histories of calls of the proxy pallet by all accounts, all delays", "why_tests_cant": "The claim is about all orders of naming, announcing, rejecting and removing.", "anchors": [{"file": "runtime/kreivo/src/lib.rs", "symbols": ["pallet_proxy::Config", "MaxPending", "MaxProxies"]}]}
{"id": "C165", "title": "A delay leaves the account time from the moment it is granted", "statement": "From the moment an account names a delegate with a delay, at least the delay passes before the delegate makes a call for it.", "quantifier": "all histories of calls of the proxy pallet by all accounts, all delays", "why_tests_cant": "It depends on what was announced before the delegate was named.", "anchors": [{"file": "runtime/kreivo/src/lib.rs", "symbols": ["pallet_proxy::Config"]}]}
{"id": "C166", "title": "Deposits for preimages are held exactly and come back", "statement": "What is held of an account for preimages is at any time exactly the deposit for two entries and 64 bytes plus one per byte for each preimage it noted and has not given back. Only its own noting raises it, only its own or root's giving back lowers it; it can give back any of them at any time, whether they are still wanted or not, and gets all of that deposit; noting what was asked for is free.", "quantifier": "all histories of noting, giving back, requesting and scheduling by all accounts and root", "why_tests_cant": "Requests of referenda, the scheduler and root interleave with those who paid.", "anchors": [{"file": "runtime/kreivo/src/lib.rs", "symbols": ["PreimageBaseDeposit", "PreimageByteDeposit", "pallet_preimage::Config"]}]}
{"id": "C167", "title": "The call of a proposal is there when it is due", "statement": "If the call of a proposal, given by its hash, is there when the proposal is submitted, then it is made when the approved proposal is due, whatever anybody but root does in between. No call is made but that of a task that is due, when its bytes are there and as long as was said.", "quantifier": "all histories of noting, giving back, proposing, approving, scheduling and running, by all accounts", "why_tests_cant": "Others can take back or supply the call at any moment before it is due.", "anchors": [{"file": "runtime/kreivo/src/lib.rs", "symbols": ["pallet_preimage::Config", "pallet_scheduler::Config"]}, {"file": "runtime/kreivo/src/collective/governance.rs", "symbols": ["Preimages"]}, {"file": "runtime/kreivo/src/communities/governance.rs", "symbols": ["Preimages"]}]}
{"id": "C168", "title": "Time goes forward with the relay chain", "statement": "The time of Kreivo never goes back, nor do its slots or the relay block it is built against. Each block's time lies in the six seconds of the relay chain's slot it is built against, and no three blocks share a slot. A block that satisfies this, with at most two blocks before it not yet included by the relay chain, is accepted, and no other.", "quantifier": "all chains of blocks from genesis, all relay chains", "why_tests_cant": "Depends on every earlier block.", "anchors": [{"file": "runtime/kreivo/src/lib.rs", "symbols": ["ConsensusHook", "SLOT_DURATION", "pallet_aura::Config", "UNINCLUDED_SEGMENT_CAPACITY", "BLOCK_PROCESSING_VELOCITY"]}, {"file": "runtime/kreivo/src/configuration/system_support.rs", "symbols": ["pallet_timestamp::Config", "CheckAssociatedRelayNumber"]}]}
{"id": "C169", "title": "Periods counted in blocks last their time", "statement": "Periods are counted in blocks of six seconds: from any block to the one n blocks later at least n times six seconds pass.", "quantifier": "all chains of blocks from genesis, all pairs of blocks, all relay chains that include at most one block of Kreivo in each of their own", "why_tests_cant": "Ranges over all chains and authors, who choose when to make blocks.", "anchors": [{"file": "runtime/kreivo/src/lib.rs", "symbols": ["MILLISECS_PER_BLOCK", "BLOCK_PROCESSING_VELOCITY", "UNINCLUDED_SEGMENT_CAPACITY"]}, {"file": "runtime/kreivo/src/configuration/system_support.rs", "symbols": ["MinimumPeriod"]}]}
{"id": "C170", "title": "The author of a block is who made it", "statement": "Who is taken for the author of a block, and so is paid and counted as active, is the collator whose registered key sealed it, also in blocks in which the session changes. There is an author unless nobody serves.", "quantifier": "all chains of blocks, with any changes of keys and collators", "why_tests_cant": "Keys, collators and sessions change in the block itself; the order of hooks decides.", "anchors": [{"file": "runtime/kreivo/src/lib.rs", "symbols": ["Authorship", "CollatorSelection", "Session", "Aura", "AuraExt", "pallet_authorship::Config"]}]}
{"id": "C171", "title": "Chosen collators serve one session, from the end of the next one", "statement": "Whom collator selection chooses when a session ends, and who has keys then, takes turns in making blocks from the end of the next session on for one session, and nobody else does; until the second change those of genesis do. In as many slots in a row as there are authorities each has its turn exactly once. If nobody was chosen, those before go on.", "quantifier": "all chains of blocks, all choices, all changes of keys", "why_tests_cant": "Sessions are queued: what is seen now was decided two changes ago.", "anchors": [{"file": "runtime/kreivo/src/lib.rs", "symbols": ["pallet_session::Config", "Period", "Offset", "pallet_aura::Config", "SessionKeys"]}]}
{"id": "C172", "title": "Messages of a chain are executed in order, none twice, none lost", "statement": "The messages taken from another chain or the relay chain come to their turn in the order they were sent. Those a block has room for are executed then, each exactly once. Only messages too heavy for any block are set aside; they are kept, and executed when somebody pays for them, until more than eight pages hold only such messages and somebody has one of the pages forgotten.", "quantifier": "all histories of arriving messages, of serving the queue with any weights, and of calls on messages set aside", "why_tests_cant": "Depends on every interleaving of arrivals, partly served pages and calls.", "anchors": [{"file": "runtime/kreivo/src/lib.rs", "symbols": ["pallet_message_queue::Config", "HeapSize", "MaxStale", "MessageQueueServiceWeight", "cumulus_pallet_xcmp_queue::Config"]}, {"file": "runtime/kreivo/src/configuration/system_support.rs", "symbols": ["DmpQueue", "XcmpMessageHandler"]}]}
{"id": "C173", "title": "Every message that arrives is taken", "statement": "Every message that another chain sends through a channel of the usual 102400 bytes, or that the relay chain sends, is taken into the queue.", "quantifier": "all pages of messages, all states of the queue", "why_tests_cant": "Ranges over all sizes of messages and all backlogs.", "anchors": [{"file": "runtime/kreivo/src/lib.rs", "symbols": ["HeapSize", "MaxPageSize", "cumulus_pallet_xcmp_queue::Config", "pallet_message_queue::Config"]}, {"file": "runtime/kreivo/src/configuration/system_support.rs", "symbols": ["DmpQueue"]}]}
{"id": "C174", "title": "Every chain gets its turn", "statement": "However much other chains send, as long as a block's share for messages covers the overhead of one and no queue is paused, a message with d messages of its own chain before it has its turn within 2n(d+1) blocks, n being the number of chains that can send. A queue with messages is in the ring of queues exactly once.", "quantifier": "all histories of all queues, all schedules within blocks", "why_tests_cant": "A liveness property over all schedules.", "anchors": [{"file": "runtime/kreivo/src/lib.rs", "symbols": ["pallet_message_queue::Config", "MessageQueueServiceWeight"]}]}
{"id": "C175", "title": "Sending a message to another chain costs the declared delivery fee", "statement": "A message can be sent to the relay chain and to sibling chains, each its own way, and nowhere else. Who sends it pays at least the delivery fee the runtime declares: three cents and the fee for its bytes.", "quantifier": "all destinations, all lengths of messages", "why_tests_cant": "Ranges over all locations and lengths.", "anchors": [{"file": "runtime/kreivo/src/xcm_config.rs", "symbols": ["XcmRouter"]}, {"file": "runtime/kreivo/src/lib.rs", "symbols": ["PriceForSiblingDelivery", "PriceForSiblingParachainDelivery", "PriceForParentDelivery", "ToSiblingBaseDeliveryFee"]}]}
{"id": "C176", "title": "Messages to a chain leave in order, once, and none is lost", "statement": "The messages taken for another chain are handed over in the order they were taken, none twice, and none is lost. The same for messages to the relay chain. A block hands over no more than the relay chain takes, at most one page for a chain, each of a length the channel takes. At most 128 channels are in use at a time.", "quantifier": "all histories of sending, signals, requests to stop and go on, and blocks with any state of the channels", "why_tests_cant": "Depends on every interleaving and on what the relay chain reports in each block.", "anchors": [{"file": "runtime/kreivo/src/lib.rs", "symbols": ["cumulus_pallet_xcmp_queue::Config", "MaxActiveOutboundChannels", "MaxPageSize"]}, {"file": "runtime/kreivo/src/configuration/system_support.rs", "symbols": ["OutboundXcmpMessageSource"]}]}
{"id": "C177", "title": "No channel to another chain starves", "statement": "Whatever is sent to other chains, the oldest messages waiting for a chain are handed over within 128 blocks, if the chain does not ask to stop and its channel stays open and empties.", "quantifier": "all histories, all states of other channels", "why_tests_cant": "A liveness property over all schedules.", "anchors": [{"file": "runtime/kreivo/src/lib.rs", "symbols": ["cumulus_pallet_xcmp_queue::Config", "MaxActiveOutboundChannels", "MaxPageSize"]}, {"file": "runtime/kreivo/src/configuration/system_support.rs", "symbols": ["OutboundXcmpMessageSource"]}]}
{"id": "C178", "title": "Chains that ask to stop get no messages; signals always go out", "statement": "A chain that asked Kreivo to stop gets no messages until it asks to go on or its channel is closed. A signal of Kreivo to a chain, which is to stop or to go on, goes out within 128 blocks in which its channel has room, also to a chain that asked to stop, and before any messages.", "quantifier": "all histories of sending, signals, requests and blocks", "why_tests_cant": "Ranges over all interleavings of requests, sending and blocks.", "anchors": [{"file": "runtime/kreivo/src/lib.rs", "symbols": ["cumulus_pallet_xcmp_queue::Config", "MaxActiveOutboundChannels"]}, {"file": "runtime/kreivo/src/configuration/system_support.rs", "symbols": ["OutboundXcmpMessageSource"]}]}
{"id": "C179", "title": "Only the collective settles disputes about payments", "statement": "On Kreivo a payment under review stays as it is until its sender pays once more or root resolves it, and no payments call is ever made as root but by a scheduled call whose time has come, after the collective approved, with nine tenths of the voting weight and half an hour or more after it was submitted, a proposal to act as root.", "quantifier": "all histories of payments, referenda, votes, scheduled calls and blocks", "why_tests_cant": "Two state machines and the scheduler between them, over all interleavings.", "anchors": [{"file": "runtime/kreivo/src/payments.rs", "symbols": ["DisputeResolver"]}, {"file": "runtime/kreivo/src/collective/tracks.rs", "symbols": ["TracksInfo"]}, {"file": "pallets/payments/src/lib.rs", "symbols": ["resolve_dispute"]}]}
{"id": "C180", "title": "Every dispute about a payment can be settled", "statement": "Whenever a payment is under review there is a way for the chain to go on such that the dispute is resolved and the funds of both parties are freed.", "quantifier": "all chains and histories", "why_tests_cant": "Liveness from every reachable state, over two pallets and all chain specifications.", "anchors": [{"file": "runtime/kreivo/src/payments.rs", "symbols": ["DisputeResolver"]}, {"file": "chain-spec-generator/src/spec/local.rs", "symbols": ["genesis"]}, {"file": "runtime/kreivo/src/collective/mod.rs", "symbols": ["AddOrigin"]}]}
{"id": "C181", "title": "Every call of the communities pallet announces itself, once", "statement": "Every successful call of the communities pallet, whether made directly or as a community's account, adds exactly one event of that pallet, and the event names what the call did: the community, the member, the membership, its rank, or the voter, the referendum and the vote.", "quantifier": "all configurations, states, origins and calls", "why_tests_cant": "Holds for every call from every state, with calls nested to any depth.", "anchors": [{"file": "pallets/communities/src/lib.rs", "symbols": ["Event", "unlock", "vote", "remove_vote", "set_admin_origin", "dispatch_as_account"]}]}
{"id": "C182", "title": "The events tell which communities there are and who administers them", "statement": "Whoever follows the events of the chain from a start without communities knows at any time which communities exist and which origin administers which.", "quantifier": "all histories of calls, registrations, status changes and changes of the world", "why_tests_cant": "A replay argument over all histories of two pallets.", "anchors": [{"file": "pallets/communities/src/lib.rs", "symbols": ["set_admin_origin", "Event"]}, {"file": "pallets/communities-manager/src/lib.rs", "symbols": ["register", "Event"]}]}
{"id": "C183", "title": "The events tell how the votes on a referendum stand", "statement": "Whoever follows the events of the chain knows for each account what it votes on a referendum that is open.", "quantifier": "all histories, referenda, accounts and votes", "why_tests_cant": "A replay argument over all histories.", "anchors": [{"file": "pallets/communities/src/lib.rs", "symbols": ["vote", "remove_vote", "Event"]}, {"file": "pallets/communities/src/functions.rs", "symbols": ["try_vote", "try_remove_vote"]}]}
{"id": "C184", "title": "A community's funds go into payments only at its word", "statement": "In every history in which no two payments share an id (C109), when the free balance of a community's account falls in a step that concerns payments, by more than a rest below the asset's minimum, the payments call was made by somebody who speaks for the community: its own voice after an approved referendum, its account, its administrator, or somebody with authority over a community whose account does; or by root, after the collective approved a call as root. No refund, dispute or acceptance of somebody else takes from it.", "quantifier": "all histories of governance and payments, communities, assets, origins and calls nested to any depth", "why_tests_cant": "Ranges over every interleaving of extrinsics, referenda, scheduled calls and payments.", "anchors": [{"file": "runtime/kreivo/src/payments.rs", "symbols": ["KreivoFeeHandler", "SenderOrigin"]}, {"file": "pallets/payments/src/lib.rs", "symbols": ["pay", "accept_and_pay", "resolve_dispute"]}, {"file": "pallets/communities/src/lib.rs", "symbols": ["dispatch_as_account"]}, {"file": "pallets/communities/src/origin.rs", "symbols": ["EnsureCommunity", "AsSignedByCommunity"]}]}
{"id": "C185", "title": "The events tell which payments there are and how they stand", "statement": "Whoever follows the events of the payments pallet from a start without payments knows at any time which payment ids are in use, between whom and over what amount, how each payment stands (created, asked for, refund asked for until when, under review, finished) and how a dispute was decided.", "quantifier": "all histories of payments calls, scheduled refunds and other changes of balances, all configurations and ids", "why_tests_cant": "A replay argument over all histories.", "anchors": [{"file": "pallets/payments/src/lib.rs", "symbols": ["Event", "pay", "release", "request_refund", "accept_and_pay", "cancel", "dispute_refund", "request_payment", "resolve_dispute"]}, {"file": "pallets/payments/src/types.rs", "symbols": ["PaymentState"]}]}
{"id": "C186", "title": "What is kept for root is done only by decision of the collective", "statement": "Whatever part of the chain is looked at: if a condition on it can be brought about only by calls made as root, then when it holds and did not at the start, it came about by a call that the scheduler made as root after the collective approved a referendum with the origin root; a call made as a community was approved by that community's referendum, alone or in a batch, or ordered by root; and without a member of rank one or more in the collective none of this ever happens.", "quantifier": "all parts of the state that only their own calls change, all conditions on them, all histories of governance around them", "why_tests_cant": "An induction over histories of arbitrary other pallets beside governance.", "anchors": [{"file": "runtime/kreivo/src/collective/governance.rs", "symbols": ["KreivoReferendaInstance"]}, {"file": "runtime/kreivo/src/collective/tracks.rs", "symbols": ["TrackInfo"]}, {"file": "runtime/kreivo/src/communities/governance.rs", "symbols": ["CommunityReferendaInstance"]}, {"file": "runtime/kreivo/src/governance/origins.rs", "symbols": ["pallet_custom_origins"]}]}
{"id": "C187", "title": "The runtime is replaced only by code the collective asked for, one at a time, when the relay chain agrees", "statement": "The code of the chain changes to another code only if the collective decided, by a call made as root, to set, authorize or write just that code; anybody may hand in an authorized code but no other; while one replacement is pending no second begins; it takes effect only on the go-ahead of the relay chain and is dropped when the relay chain aborts it; and a code set in the checked way has the name kreivo-parachain and a higher version than the present.", "quantifier": "all codes, all hash and version functions, all calls by all origins, all signals of the relay chain, all histories of governance", "why_tests_cant": "Codes, orders of calls and signals are unbounded.", "anchors": [{"file": "runtime/kreivo/src/configuration/system_support.rs", "symbols": ["frame_system::Config", "cumulus_pallet_parachain_system::Config"]}, {"file": "runtime/kreivo/src/lib.rs", "symbols": ["VERSION"]}]}
{"id": "C188", "title": "Whatever runs as a contract was let in by the collective", "statement": "On a chain that starts without a given code, a contract of that code exists only after the collective decided to upload it or put it in place; the first contract at all is made by decision of the collective or of the communities 1 or 2; and contracts are made only of codes that are kept.", "quantifier": "all codes, addresses, calls and contracts calling one another, all histories of governance", "why_tests_cant": "Contracts may make further contracts to any depth.", "anchors": [{"file": "runtime/kreivo/src/contracts.rs", "symbols": ["pallet_contracts::Config", "UploadOrigin", "InstantiateOrigin"]}]}
{"id": "C189", "title": "Native funds leave an account only by its own hand or by decision of the collective", "statement": "A call of the balances pallet leaves an account with less only if the account itself made it or root did, and root only after a decision of the collective. A transfer takes exactly the amount from the one and gives exactly the amount to the other, never frozen funds; what the sender is left with is lost only below the existential deposit, and not at all with keep-alive.", "quantifier": "all accounts, amounts, calls and origins, all histories of governance", "why_tests_cant": "All sequences of calls over all accounts.", "anchors": [{"file": "runtime/kreivo/src/configuration/monetary_stuff.rs", "symbols": ["pallet_balances::Config"]}, {"file": "runtime/kreivo/src/lib.rs", "symbols": ["Balances"]}]}
{"id": "C190", "title": "The native issuance on record is the sum of all balances", "statement": "No call of the balances pallet makes the total issuance differ from the sum of all balances, dust included, but root's call to adjust it, which runs only by decision of the collective; and no call but root's raises it.", "quantifier": "all accounts, amounts, calls and origins, all histories of governance", "why_tests_cant": "A sum over unboundedly many accounts.", "anchors": [{"file": "runtime/kreivo/src/configuration/monetary_stuff.rs", "symbols": ["pallet_balances::Config"]}, {"file": "runtime/kreivo/src/lib.rs", "symbols": ["Balances"]}]}
{"id": "C191", "title": "Over its whole life a payment moves exactly what its outcome says", "statement": "Take a payment made by pay and follow it, whatever else happens on the chain, to the step that ends it. The pay and all later actions about that payment together move: nothing at all if it was cancelled or refunded; exactly the amount to the beneficiary and every fee once if it was released; exactly the amount, the fees due on disputes, one incentive to the resolver and the decided share if it was resolved. Nothing of it stays held, and no other asset is touched. While it lasts, exactly the amount has moved and exactly its escrow is held.", "quantifier": "all reachable histories in which this payment's id is not given to two senders, all payments, all sequences of actions between the pay and the end, including other payments, outside transfers and blocks", "why_tests_cant": "A test follows one scripted life of one payment; the sum has to come out for every order of calls, every fee list and everything that other users do in between.", "anchors": [{"file": "pallets/payments/src/lib.rs", "symbols": ["pay", "release", "request_refund", "cancel", "dispute_refund", "resolve_dispute", "accept_and_pay", "settle_payment", "cancel_payment", "reserve_payment_amount"]}, {"file": "pallets/payments/src/types.rs", "symbols": ["Fees"]}]}
{"id": "C192", "title": "A community that closes its collection decides who its members are", "statement": "Once the collection of a community is frozen, with the community's account as owner and admin and minting left to it, then whatever anybody does and however many blocks pass: nobody comes to hold a membership they did not hold, nobody becomes a member, and nobody but a member who burns their own membership ceases to be one, unless a call is made by root or with authority over the community; and the collection stays closed as long.", "quantifier": "all states with a closed collection, all histories of calls of pallet_nfts, communities and communities-manager by anybody, nested in dispatch_as_account to any depth, and of blocks", "why_tests_cant": "A test tries some calls of some accounts once; this is about every sequence of calls of everybody, including approvals, offers and prices made before the collection was frozen.", "anchors": [{"file": "pallets/communities-manager/src/lib.rs", "symbols": ["register"]}, {"file": "runtime/kreivo/src/communities/memberships.rs", "symbols": ["Config"]}, {"file": "pallets/communities/src/lib.rs", "symbols": ["add_member", "remove_member", "dispatch_as_account"]}]}
{"id": "C193", "title": "Blocks are made by the invulnerable and by the candidates with the highest bonds", "statement": "From the third session on, whoever is taken for the author of a block had session keys when the session before the last one ended, and was then either invulnerable or a candidate whose reserved bond was exceeded by fewer candidates than are desired. The other way round, every invulnerable, and every candidate whose bond places them among the desired number, who had session keys, has a turn to make blocks, with the key registered then, in the session after the next. Nobody becomes invulnerable or a candidate but by a transaction that asks for it, at a moment when they have session keys.", "quantifier": "all chains of blocks from genesis with at most 100 collators: any slots, any seals that are accepted, any transactions about session keys, bonds, candidacies, invulnerables and desired numbers, in any order and with any failures, any number of blocks in an hour", "why_tests_cant": "The pallets for authorship, collator selection, sessions and Aura each have their own tests; who makes a block depends on all of them, on the order of their hooks and on two session changes, 12 hours apart, with any transactions in between.", "anchors": [{"file": "runtime/kreivo/src/lib.rs", "symbols": ["SessionManager", "EventHandler", "Period"]}, {"file": "chain-spec-generator/src/spec/local.rs", "symbols": ["collatorSelection"]}]}
{"id": "C194", "title": "A collator loses their place for idleness only after having had a chance to make blocks", "statement": "A candidate who is not invulnerable and is dropped when a session ends, because they made no block, was among those who could make blocks for a session before, and let it pass; and one who made a block within the last six hours is not dropped. Other blocks than those in which a session ends drop nobody, and transactions displace a candidate only who leaves, changes the bond, has less than the least bond, is outbid or is made invulnerable.", "quantifier": "all chains of blocks from genesis with at most 100 collators, all candidates, all moments at which they registered", "why_tests_cant": "Whether a candidate is dropped depends on the block in which they registered, on two session changes after it and on who sealed every block in between.", "anchors": [{"file": "runtime/kreivo/src/lib.rs", "symbols": ["KickThreshold", "Period", "SessionManager", "EventHandler"]}]}
{"id": "C195", "title": "A community does only what more of its votes are for than against", "statement": "When a referendum of a community is approved, and the community has the rules it was registered with, then at that moment there are votes for it on record, those for it weigh at least as much as those against it, and, with one vote per membership, after e blocks of deciding those for it are at least (255 - e)/510 of the memberships.", "quantifier": "all histories of communities, memberships, referenda and scheduled calls from a genesis without referenda, all referenda of communities; with at most 10^9 votes for the exact comparison", "why_tests_cant": "Votes are cast, changed and taken back, memberships change hands and rank, and the referendum is looked at again and again over days; the tally is kept by sums and differences and never compared with the votes on record.", "anchors": [{"file": "pallets/communities/src/lib.rs", "symbols": ["vote", "remove_vote"]}, {"file": "pallets/communities/src/types.rs", "symbols": ["Tally"]}, {"file": "pallets/communities-manager/src/lib.rs", "symbols": ["register"]}, {"file": "runtime/kreivo/src/communities/governance.rs", "symbols": ["CommunityReferendaInstance"]}]}
{"id": "C196", "title": "Members of a community who agree get their proposal approved", "statement": "In a community that has the rules it was registered with, a proposal with its deposit paid that half of the memberships have voted for and none against is approved when it is looked at twice, a block apart, if the community is not deciding another one; and a proposal that is being decided is rejected only after 255 blocks, when there are no votes for it on record or those against it weigh more.", "quantifier": "all histories of communities, memberships, referenda and scheduled calls from a genesis without referenda, all referenda of communities, up to 10^9 votes and memberships", "why_tests_cant": "Votes are cast, changed and taken back over days while the thresholds fall; what must not happen, that a majority is turned down, depends on rounding, on the sums kept and on when the referendum is looked at.", "anchors": [{"file": "pallets/communities/src/lib.rs", "symbols": ["vote", "remove_vote"]}, {"file": "pallets/communities/src/types.rs", "symbols": ["Tally"]}, {"file": "pallets/communities-manager/src/lib.rs", "symbols": ["register"]}, {"file": "runtime/kreivo/src/communities/governance.rs", "symbols": ["CommunityReferendaInstance"]}]}
{"id": "C197", "title": "The collective rejects only what the majority it asks for is not behind", "statement": "As long as no more than 65537 accounts vote on one referendum: a referendum of the collective is rejected only after four days of deciding, and only when there are no votes for it on record, or those for it weigh less than nine times those against it (to create memberships: less than those against it, or come from less than half of the members who have a vote). One that has its four days and its confirmation behind it and that majority on record is approved when it is looked at.", "quantifier": "all histories of the collective, its referenda and scheduled calls from a genesis without referenda in which at most 65537 accounts vote on one; weights up to 10^9 in all and up to 10^9 members", "why_tests_cant": "Votes are cast and changed over days while the thresholds fall and members come, go and change rank; that no majority is turned down depends on rounding, on the sums kept and on when the referendum is looked at.", "anchors": [{"file": "runtime/kreivo/src/collective/tracks.rs", "symbols": ["TracksInfo"]}, {"file": "runtime/kreivo/src/collective/governance.rs", "symbols": ["KreivoReferendaInstance"]}, {"file": "runtime/kreivo/src/collective/mod.rs", "symbols": ["KreivoCollectiveInstance"]}]}
{"id": "C198", "title": "A coin counts at most once in a vote", "statement": "Every vote on record in an open community poll that is cast with money is of money its voter still has at that moment, in the native currency or in the community's asset; so all votes of the poll together are of no more money than exists. The calls accounts make to move money leave what is frozen for their votes.", "quantifier": "every history of communities, votes, removals, unlocks, transfers and other movements of money that leave what is frozen, every poll, voter and amount", "why_tests_cant": "A test casts a few votes and looks at a freeze; it cannot exclude that some order of voting, moving money, removing and unlocking lets the same coins stand behind two votes.", "anchors": [{"file": "pallets/communities/src/functions.rs", "symbols": ["try_vote", "try_remove_vote", "update_locks"]}, {"file": "pallets/communities/src/lib.rs", "symbols": ["vote", "remove_vote", "unlock"]}, {"file": "runtime/kreivo/src/configuration/monetary_stuff.rs", "symbols": ["pallet_balances::Config"]}]}
{"id": "C199", "title": "What is teleported away stays behind", "statement": "What a message teleports away is put, exactly, on the checking account (the account of `py/xcmch`), and on no other; of an asset of which nothing exists here nothing is put anywhere. No instruction, short of a call dispatched with Transact, of a message of a parachain, of anything inside one, or of an account on this chain or the relay chain, other than the checking account itself, ever takes anything from it. Nothing arrives by teleport, whoever sends it.", "quantifier": "all machine states, assets and amounts; all sequences of messages from such senders, wherever they fail", "why_tests_cant": "A test sends one message; that nothing ever leaves the account is about all sequences of messages.", "anchors": [{"file": "runtime/kreivo/src/xcm_config.rs", "symbols": ["CheckAccount", "CheckingAccount", "IsTeleporter"]}]}
{"id": "C200", "title": "Who takes units of an asset from an account, and when", "statement": "A call leaves an account with fewer units of an asset only if its holder sent them, a delegate the holder approved for at least that request sent them, the asset's admin sent or burned them, the holder gave the account up, or the asset is being destroyed. Sending and burning take, beyond what was asked for, only a rest below the asset's minimum, and only while asset and account are not frozen and with what is frozen for votes staying. What a holder sends arrives in full, nobody else's units change, and a holder can send what is free of freezes and the minimum.", "quantifier": "all states, callers, calls, assets, accounts and amounts", "why_tests_cant": "Every call of the pallet, in every state of asset and account: which calls take units is a statement about all of them at once.", "anchors": [{"file": "runtime/kreivo/src/configuration/monetary_stuff.rs", "symbols": ["impl pallet_assets::Config<KreivoAssetsInstance> for Runtime", "AssetsForceOrigin"]}, {"file": "runtime/kreivo/src/configuration/monetary_stuff.rs", "symbols": ["impl pallet_assets_freezer::Config<KreivoAssetsInstance> for Runtime"]}]}
{"id": "C201", "title": "Units frozen for votes stay on their account", "statement": "Units of an asset that are frozen on an account, as communities freeze them for votes, stay there: no call and no other pallet takes them.", "quantifier": "all states, callers and calls", "why_tests_cant": "A test tries a transfer; the claim is about each of the calls that lower a balance.", "anchors": [{"file": "runtime/kreivo/src/configuration/monetary_stuff.rs", "symbols": ["impl pallet_assets_freezer::Config<KreivoAssetsInstance> for Runtime", "impl pallet_assets::Config<KreivoAssetsInstance> for Runtime"]}, {"file": "pallets/communities/src/functions.rs", "symbols": ["update_locks"]}]}
{"id": "C202", "title": "A delegate takes no more than it was given leave for", "statement": "Over any history, the units a delegate takes from a holder of an asset are no more than what the holder gave it leave for. The leave grows less only by the holder's cancelling it, the delegate's use of just that much, force by the asset's admin or root, or destruction of the asset.", "quantifier": "all histories of calls, assets, holders and delegates", "why_tests_cant": "A property of whole histories: leave given several times, used in part, cancelled, forced away.", "anchors": [{"file": "runtime/kreivo/src/configuration/monetary_stuff.rs", "symbols": ["ApprovalDeposit", "impl pallet_assets::Config<KreivoAssetsInstance> for Runtime"]}]}
{"id": "C203", "title": "The units of an asset and its supply", "statement": "At any time the units that accounts have of an asset add up to the supply on record; never to more.", "quantifier": "all histories of calls, and of what other pallets do with assets apart from putting units on hold for payments, which takes them off the balance", "why_tests_cant": "A sum over all accounts, kept by every call in every order.", "anchors": [{"file": "runtime/kreivo/src/configuration/monetary_stuff.rs", "symbols": ["impl pallet_assets::Config<KreivoAssetsInstance> for Runtime"]}]}
{"id": "C204", "title": "Deposits for asset accounts and approvals come back", "statement": "What an account has reserved for the assets pallet is at any time exactly what it left for accounts (its own, or those it opened for others) and for approvals that still exist; an account for which none exists has nothing reserved. Opening an account costs who opens it 20 cents and 16 thousandths of one, and an approval a tenth of a cent, once.", "quantifier": "all histories of calls, all accounts", "why_tests_cant": "A sum over all accounts and approvals of all assets, after any history, including destruction of assets and deposits others made.", "anchors": [{"file": "runtime/kreivo/src/configuration/monetary_stuff.rs", "symbols": ["AssetAccountDeposit", "ApprovalDeposit"]}]}
{"id": "C205", "title": "An asset that is destroyed leaves nothing, and destruction can be finished", "statement": "An asset that does not exist has no accounts, no units and no approvals. The record of an asset says there are no accounts, or approvals, exactly when there are none. Once an asset is being destroyed, anybody can bring that to its end by calls of their own.", "quantifier": "all histories of calls, all assets and accounts", "why_tests_cant": "A statement about all histories; and that an end can be reached is about all numbers of accounts and approvals.", "anchors": [{"file": "runtime/kreivo/src/configuration/monetary_stuff.rs", "symbols": ["impl pallet_assets::Config<KreivoAssetsInstance> for Runtime", "RemoveItemsLimit"]}]}
{"id": "C206", "title": "Who runs an asset", "statement": "Owner, issuer, admin, freezer, minimum, sufficiency and status of an asset change only so: the owner of a live asset hands it on or names the others; the owner sets the minimum or starts destruction; the freezer freezes a live asset, the admin thaws a frozen one; or root starts destruction, or writes all of it anew unless it is being destroyed. No call makes an asset but one by root, with no units; an asset goes only at the end of its destruction. Only the issuer raises the supply of a live asset, to the benefit of the account named; only the admin lowers it, by burning; only the freezer freezes or blocks an account, only the admin thaws it.", "quantifier": "all states, callers and calls", "why_tests_cant": "The claim is about all calls of the pallet by all callers.", "anchors": [{"file": "runtime/kreivo/src/configuration/monetary_stuff.rs", "symbols": ["AssetsForceOrigin", "impl pallet_assets::Config<KreivoAssetsInstance> for Runtime"]}]}
{"id": "C207", "title": "Batches do what their calls do", "statement": "A batch_all takes effect if and only if its calls, made one after the other, all succeed, and then has exactly their effect; a batch takes effect up to the first call that fails; a force_batch has the effect of all calls that do not fail. However calls are batched, nested, or made as a derived account, nothing happens that the plain calls inside, made one by one by the same caller or accounts derived from it, would not do. So the histories of referenda, communities and payments that single calls make are all there are with batches from outside or from the scheduler too.", "quantifier": "all callers, states, and trees of nested batches over any calls", "why_tests_cant": "All nestings and all points of failure; a test tries a few.", "anchors": [{"file": "runtime/kreivo/src/lib.rs", "symbols": ["impl pallet_utility::Config for Runtime"]}]}
{"id": "C208", "title": "Units of an asset arrive only where they may", "statement": "When an account has more units of an asset after a call, the issuer of the asset made them for it, or exactly as many left another account whose holder, delegate or admin sent them. A blocked account is never given any, by calls or by other pallets. In every history the supply and every balance fit into 128 bits, and as long as root sets no other minimum an account without a deposit holds at least the minimum. A holder with a free account can send all of it.", "quantifier": "all asset states, origins and calls; all histories for bounds and minimum", "why_tests_cant": "Any sequence of mints, transfers, approvals, burns, freezes and destructions by any parties can precede.", "anchors": [{"file": "runtime/kreivo/src/configuration/monetary_stuff.rs", "symbols": ["KreivoAssetsInstance", "KreivoAssetsCall"]}]}
{"id": "C209", "title": "Deposits for assets are the caller's and come back", "statement": "A call on assets reserves money of nobody but who made it, and only to approve a delegate or to open an account of a live asset, for oneself or, as admin or freezer, for another. An account opened with a deposit goes only when its holder gives it up, when who lent the deposit or the admin gives it up empty, or when the asset is destroyed; in the first two cases the deposit is released to who left it.", "quantifier": "all asset states, origins and calls", "why_tests_cant": "Every call in every state, by every origin, has to be excluded as a way of reserving somebody else's money or closing their account.", "anchors": [{"file": "runtime/kreivo/src/configuration/monetary_stuff.rs", "symbols": ["AssetAccountDeposit", "ApprovalDeposit", "KreivoAssetsCall"]}]}
{"id": "C210", "title": "A pass acts only when one of its devices vouches for it", "statement": "Whatever is done in the name of a pass account was vouched for by a credential signed with the key of a device that the account had at that moment, shown in the same call or in an earlier one. The devices of a pass are the one it was registered with, when it was new, and those added in its own name. A pass is registered once.", "quantifier": "all histories of calls by any origins, from the beginning, and all calls made in the name of any pass", "why_tests_cant": "All interleavings of registrations, logins, sessions and calls.", "anchors": [{"file": "runtime/kreivo/src/configuration/system_support.rs", "symbols": ["PassAuthenticator", "RegisterOrigin", "UnincludedBlockHashChallenger"]}, {"file": "runtime/kreivo/src/lib.rs", "symbols": ["Pass"]}]}
{"id": "C211", "title": "Sessions of a pass last as long as asked for and no longer than the maximum", "statement": "A key speaks for a pass only within the maximum session duration after it logged in with a device of the pass, no longer than it asked for, or after a call made for the pass named it. Without such naming nothing is done for the pass later than that duration and three blocks after the block whose hash a device signed. Whoever logs in with a fresh credential gets in and speaks for the pass for the whole time, whatever others do.", "quantifier": "all histories, keys, passes, durations and interleaved events", "why_tests_cant": "All interleavings and times.", "anchors": [{"file": "runtime/kreivo/src/configuration/system_support.rs", "symbols": ["MaxSessionDuration", "UnincludedBlockHashChallenger::check_challenge"]}, {"file": "runtime/kreivo/src/lib.rs", "symbols": ["ChargeTxToPassAccount", "Pass"]}]}
{"id": "C212", "title": "A credential serves only the one who made it", "statement": "A credential made to log in to a pass opens a session for the signer it was made for and for nobody else who gets to see it.", "quantifier": "all states, credentials and signers", "why_tests_cant": "All signers and orders of transactions.", "anchors": [{"file": "runtime/kreivo/src/configuration/system_support.rs", "symbols": ["UnincludedBlockHashChallenger", "WebAuthn"]}, {"file": "runtime/kreivo/src/lib.rs", "symbols": ["Pass"]}]}
{"id": "C213", "title": "The collators' pot goes to those who make blocks", "statement": "Each block takes from the collators' pot nothing or exactly half of what it has beyond the existential deposit, all of which goes to the author of the block; the pot keeps its existential deposit. It is paid whenever there is anything to pay and the author's account can take it. Unless somebody acts for the pot's account or the collective interferes, whatever leaves the pot went to authors.", "quantifier": "all balances, authors and histories of calls and blocks", "why_tests_cant": "Sums over histories of any length.", "anchors": [{"file": "runtime/kreivo/src/lib.rs", "symbols": ["PotId", "pallet_collator_selection::Config", "pallet_authorship::Config"]}]}
{"id": "C214", "title": "Nobody speaks for Kreivo on other chains", "statement": "Whatever message leaves Kreivo, whatever chain receives it and however it fails there, all that is taken up in Kreivo's own name is to bring assets along, pay for execution with them, give that name up, answer a question or ask for versions, or go on as a community. Programs that senders of assets attach run in nobody's name. Only origins of communities and accounts laid out like theirs send other messages, and what these say is taken up in the community's name (on chains that let no location pass for another, in no other).", "quantifier": "all calls, origins, messages, receiving chains and patterns of failure", "why_tests_cant": "Messages are programs of any length and run on chains with any configuration; a test runs one program on one mock chain.", "anchors": [{"file": "runtime/kreivo/src/xcm_config.rs", "symbols": ["SendXcmOrigin", "ExecuteXcmOrigin", "XcmRouter", "XcmExecuteFilter", "XcmConfig"]}, {"file": "runtime/kreivo/src/xcm_config.rs", "symbols": ["pallet_xcm::Config"]}]}
{"id": "C215", "title": "A voter can afford to take back their stake", "statement": "Whoever votes with native funds can unlock them by a transaction of their own when the poll is over: the vote never leaves them unable to pay the fee.", "quantifier": "all states, voters, stakes, fees and existential deposits; the counterexample rules out every call, fee and means of payment", "why_tests_cant": "The stake, the fee and what else is frozen vary freely, and the fee is charged by another pallet than the one that freezes.", "anchors": [{"file": "pallets/communities/src/functions.rs", "symbols": ["update_locks", "try_vote"]}, {"file": "pallets/communities/src/lib.rs", "symbols": ["vote", "unlock"]}, {"file": "runtime/kreivo/src/lib.rs", "symbols": ["ChargeTransaction"]}]}
{"id": "C216", "title": "Votes cast in an asset are of units their voters keep", "statement": "Every vote cast in an asset that is on record in an open poll is of units its voter has in that asset, all of them together are of no more than its supply, and whoever voted can remove the lock once the poll is over, whatever calls of the communities pallet and of the assets pallet are made in between.", "quantifier": "all histories of both pallets, polls, voters, assets and amounts", "why_tests_cant": "The claim joins two pallets: a vote freezes units in the books of one, and any of the thirty calls of the other may come in between.", "anchors": [{"file": "pallets/communities/src/functions.rs", "symbols": ["update_locks", "try_vote"]}, {"file": "pallets/communities/src/lib.rs", "symbols": ["unlock"]}, {"file": "runtime/kreivo/src/configuration/monetary_stuff.rs", "symbols": ["impl pallet_assets_freezer::Config<KreivoAssetsInstance> for Runtime", "impl pallet_assets::Config<KreivoAssetsInstance> for Runtime"]}]}
{"id": "C217", "title": "Every message comes to an end", "statement": "Whatever fails while a message from another chain, or of an account, is executed, no more of its instructions are tried than it has, those it carries for errors and for its end included, and a message that can be weighed has at most a hundred; then it is done, and nothing more happens on its behalf.", "quantifier": "all messages, senders, states of the chain and ways in which instructions fail", "why_tests_cant": "Messages carry programs for the case of errors and for the end, nested to any depth, and any instruction may fail.", "anchors": [{"file": "runtime/kreivo/src/xcm_config.rs", "symbols": ["MaxInstructions", "XcmConfig"]}]}
{"id": "C218", "title": "Stored entries take no more room than their weights charge", "statement": "Whatever is stored, no entry of the maps of the communities and payments pallets takes more bytes, key and value together, than the size the runtime's weights charge for touching it, and for each map some entry takes exactly that many. For the map from admin origins to communities this holds exactly when origins take at most 604 bytes.", "quantifier": "all keys, values, fee lists up to the limit and hash functions", "why_tests_cant": "Sizes depend on every field of every stored value; tests encode a few samples, never the largest.", "anchors": [{"file": "pallets/communities/src/lib.rs", "symbols": ["Info", "CommunityIdFor", "CommunityDecisionMethod", "CommunityVotes", "CommunityVoteLocks"]}, {"file": "pallets/payments/src/lib.rs", "symbols": ["Payment", "PaymentParties"]}, {"file": "runtime/kreivo/src/weights/pallet_payments.rs", "symbols": ["pay"]}, {"file": "runtime/kreivo/src/weights/pallet_communities.rs", "symbols": ["vote"]}]}
{"id": "C219", "title": "How long blocks get", "statement": "The transactions and inherents of a block have at most 5 MiB together and the normal ones at most 3.75 MiB. A transaction for which there is room by weight goes in exactly if the block is then no longer than the limit of its class (3.75 MiB for normal ones, 5 MiB for others). Normal transactions never keep operational ones out by length as long as operational ones and inherents have at most 1.25 MiB together.", "quantifier": "every sequence of transactions and inherents of any class, length and weight tried in a block, with hooks in between", "why_tests_cant": "the limits bind on the sum over every way of filling a block in any order of classes", "anchors": [{"file": "runtime/kreivo/src/configuration/system_support.rs", "symbols": ["RuntimeBlockLength", "NORMAL_DISPATCH_RATIO"]}, {"file": "runtime/kreivo/src/lib.rs", "symbols": ["SignedExtra", "CheckWeight"]}]}
{"id": "C220", "title": "A transaction its payer can pay gets into the next block", "statement": "Whatever happened before, a signed transaction tried first in the next block, with nothing used yet, goes in exactly if it was signed for this chain, runtime and time, its signer exists, its nonce is the signer's next, with the base weight it has at most 70% of the time and proof size of a block (95% if operational), it is no longer than 3.75 MiB (5 MiB if operational), and its payer has gas of a membership, or enough of the currency or asset named beyond what must stay. A transaction without an era stays good in every later block as long as the signer takes no nonce and stays, the runtime is the same and the payer can pay. Transactions take no room of later blocks. The same holds of normal transactions after the hooks at the start of the block if these used at most a quarter of it.", "quantifier": "every history of transactions, blocks, upgrades, accounts coming and going and balance changes, every transaction that is not an authentication, and every environment of fees", "why_tests_cant": "needs both directions for every history before the transaction and every reason a check may refuse", "anchors": [{"file": "runtime/kreivo/src/lib.rs", "symbols": ["SignedExtra", "ChargeTransaction", "NORMAL_DISPATCH_RATIO"]}, {"file": "runtime/kreivo/src/configuration/system_support.rs", "symbols": ["RuntimeBlockWeights"]}, {"file": "runtime/kreivo/src/configuration/monetary_stuff.rs", "symbols": ["OnChargeTransaction"]}]}
{"id": "C221", "title": "A code the collective decides to set replaces the runtime", "statement": "When the collective approves a call that sets a newer code and the scheduler makes it as root, with no other code waiting and the relay chain allowing upgrades of that size, the code waits for the relay chain's go-ahead and is in force with it; and so is a code whose hash the collective authorizes, once anybody hands it in.", "quantifier": "all codes, all hash and version functions, all other calls of the scheduler in the blocks, all signals of the relay chain", "why_tests_cant": "Depends on the order of hooks over all states and calls; codes and calls are unbounded.", "anchors": [{"file": "runtime/kreivo/src/lib.rs", "symbols": ["ParachainSystem", "Scheduler", "Executive"]}, {"file": "runtime/kreivo/src/configuration/system_support.rs", "symbols": ["OnSetCode", "cumulus_pallet_parachain_system::Config"]}]}
