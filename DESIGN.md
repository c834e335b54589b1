# Formal model of virto-node (Lean 4)

The model lives in `lean/Verif/`. Every part of the code is modelled as a total
computable function on plain data. A panic or a dispatch error is an explicit
value, `&mut` becomes a returned value, storage maps are functions to `Option`,
external pallets are parameters whose assumed behaviour is listed under
"Trusted base". FRAME calls are transactional: an error leaves the state as it was.

Layout (one directory per area): `Model.lean` the code, `Spec.lean` the small
independent vocabulary the theorems are stated in, `Lemmas*.lean` helpers,
`Theorems*.lean` the property theorems with a concrete instance next to each.

When a property is false of the code, the counterexample is a theorem
(suffix `_fails`) about the model, and the part that does hold is a theorem with
suffix `_partial`.

## Properties: what is modelled, how it is proved

| id | property | model and proof |
|---|---|---|
| C01 | Every open payment is fully backed by held funds | Payments machine. Invariant by induction over histories: for every finite set of payment keys the sum of `escrow` (spec function of the record) is at most `held`. |
| C02 | No call creates or destroys money | Every ledger primitive conserves the sum over a finite set that contains all touched accounts; lifted to calls; failed calls return the old state. |
| C03 | pay escrows exactly the promised amounts | Exact post-balances of `pay` from the ledger primitives, for all accounts/assets (per-account deltas as integers, so aliasing is covered). |
| C04 | release pays the beneficiary and every fee recipient exactly | Net effect = list of movements in a spec; induction over the aggregated fee list. |
| C05 | cancel gives everything back | Same movement calculus; deltas of cancel are the negated deltas of pay. |
| C06 | Dispute resolution distributes exactly the escrow | Same movement calculus with the dispute split. |
| C07 | Holds taken equal holds released, even when saturating | Arithmetic of saturating folds: min(sum, MAX) on both sides. |
| C08 | Payment life cycle follows the documented state machine | Case analysis of every transition against a spec relation on optional record states. The code allows accept_and_pay from every state, so the documented relation holds only for histories without that; counterexample proved. |
| C09 | Only the right party can move a payment | Case analysis: a changed record determines the call and the resolved origin. |
| C10 | A call about one payment leaves all other payments alone | Frame lemma per call. |
| C11 | Finished payments are final | False for accept_and_pay (counterexample); proved for all other transitions. |
| C12 | accept_and_pay only fulfils outstanding payment requests | False of the code: counterexample from a reachable state; what does hold is proved as _partial. |
| C13 | Requested payments transfer exactly once and to the requester | Movement calculus on accept_and_pay for a payment whose parties entry agrees. |
| C14 | request_payment moves no funds | Direct. |
| C15 | Refund deadline is exactly the configured buffer | Direct, including the overflow branch. |
| C16 | The beneficiary can dispute strictly before the deadline and not after | Direct, plus the stored deadline is immutable while pending. |
| C17 | A disputed refund is never executed automatically | Induction over histories from the disputed state. |
| C18 | The automatic refund never happens before the deadline | Agenda invariant plus the scheduler guard. |
| C19 | An undisputed refund always completes | Backing invariant discharges every ledger guard of cancel. |
| C20 | A created payment can always be released by the sender | Backing invariant discharges the release guards; fee transfers by the stated balances. |
| C21 | The parties index agrees with the payment record | Invariant by induction over histories. |
| C22 | Every open payment can be found through its id | False under id collision (counterexample); proved when every create gets a fresh id. |
| C23 | No funds stay held without an open payment | False because of accept_and_pay (counterexample); proved for histories in which accept_and_pay hits only requested payments; over all histories the held amount is proved to be the recorded escrows plus a ghost sum of the escrows that accept_and_pay closed. |
| C24 | A scheduled cancellation only ever cancels the payment whose refund was requested | False after early cancel + id reuse (counterexample); proved for fresh ids. |
| C25 | A new payment never overwrites an open one | Direct. |
| C26 | Dispute charges only fees flagged chargeable on disputes | False for mixed flags on one recipient (counterexample); proved when flags agree per recipient; Kreivo always satisfies it. |
| C27 | Fees of the same recipient are aggregated without loss | Induction over the list with a sorted association list standing for BTreeMap. |
| C28 | A payment never costs the beneficiary more than it brings | False below the asset minimum (counterexample); proved when fees do not exceed amount, and for Kreivo when amount >= minimum. |
| C29 | Kreivo fees are 1% and 3% with the asset minimum as floor, communities exempt | Byte level account model + arithmetic. |
| C30 | Kreivo payment lifecycle cost bound | Composition of C03/C04/C29. |
| C31 | Dispute incentive discipline | Movement calculus + arithmetic of mul_floor. |
| C32 | A successful dispute resolution or release empties the escrow of that payment | Held deltas from C04/C06. |
| C33 | Accounts outside a payment never lose money | Per-primitive monotonicity for non-source accounts. |
| C34 | Payment ids convert to u64 and back without loss | Byte arithmetic on little endian digits. |
| C35 | Payment ids survive SCALE encoding | Byte list model of SCALE input. |
| C36 | Printed payment ids parse back | Model of bs58 encode/decode by big-number base conversion; digit lemmas. |
| C37 | Parsing never crashes | False for dashed text longer than 12 (counterexample); proved for all other text. |
| C38 | Distinct payments get distinct ids | Byte layout injectivity modulo 2^16 in the index; the weight every transaction uses bounds the number of extrinsics in a block, by induction over what is tried in it, so the index fits. |
| C39 | Payment ids order by block, so ids embed their provenance | Byte layout projections. |
| C40 | Community ids are registered at most once | Communities machine, invariant over histories. |
| C41 | A community has at most one admin origin | Communities machine, invariant over histories. |
| C42 | Changing an admin never affects other communities | False (counterexample); proved when the new admin is not already an admin. |
| C43 | Registration takes the deposit or does nothing | Direct on register with the native ledger. |
| C44 | Only the community's own authority manages its members | Direct on origin resolution. |
| C45 | Only a community's own admin sets its decision method | False (counterexample); what holds proved as _partial. |
| C46 | remove_member removes a membership of the named member | False (counterexample); proved when the named membership belongs to the named account. |
| C47 | Rank changes by exactly one and the event reports the new rank | Event false for demote (counterexample); rank change proved. |
| C48 | Only members vote, only on their own community's open polls | Direct on vote. |
| C49 | One vote per membership and poll | Map semantics + tally effect of re-voting. |
| C50 | The tally equals the sum of the recorded votes | Invariant over histories without rank-based methods and without saturation; counterexamples for the rest. |
| C51 | remove_vote undoes vote | Direct with no-saturation hypothesis. |
| C52 | Frozen funds cover every standing vote lock | Invariant over histories. |
| C53 | Every counted balance vote is backed by a lock | False for two memberships of one account (counterexample); proved when each account votes with one membership per poll. |
| C54 | Locks can be removed once a poll is over and not before | Direct. |
| C55 | A vote cannot exceed the voter's balance | Direct. |
| C56 | Approval and support are fractions that reflect the votes | Arithmetic; wrap-around of ayes+nays proved as counterexample. |
| C57 | Approval is monotone | Arithmetic of rounding (Base/PerThing.lean, fromRational_near): exact up to 10^9, within two billionths up to 2^32 - 1. |
| C58 | Blocked communities cannot act | False through the community account (counterexample); proved for the other origins. |
| C59 | Authority over a community comes only from that community | False for other pallets' accounts (counterexample); exact characterisation proved. |
| C60 | Community accounts are distinct and reversible | Byte model of PalletId sub-accounts. |
| C61 | Community accounts never collide with other system accounts | Byte model; prefix arguments. |
| C62 | dispatch_as_account runs calls only as the caller's community account | Direct. |
| C63 | Vote weights saturate instead of wrapping | Arithmetic; rank multiplier overflow counterexample. |
| C64 | create_memberships mints consecutive ids, all priced, at most 1024 | Induction on the loop; event count wrong at id overflow (counterexample). |
| C65 | Manager registration is all or nothing | Composite transaction with failing sub-steps. |
| C66 | Default community track demands majority approval | Arithmetic of LinearDecreasing. |
| C67 | Asset ids and XCM locations convert back and forth | Case analysis over locations. |
| C68 | Distinct foreign assets never share a local asset id | Injectivity from the round trip. |
| C69 | Location conversion never crashes | False for index above u32::MAX (counterexample); exact panic set proved. |
| C70 | Only Asset Hub, the relay and asset-issuing siblings are trusted reserves | False: origin is ignored for Asset Hub assets (counterexample); exact acceptance set proved. |
| C71 | XCM senders get distinct accounts | Byte prefixes. |
| C72 | Community pluralities map to their own community account | False from index 65536 on (counterexample); proved below. |
| C73 | Community origins survive the trip through XCM | Case analysis; Member subsets lose identity (counterexample). |
| C74 | Outgoing XCM from an account speaks for a community only if it is that community's account | False for other pallets' accounts (counterexample); characterisation proved. |
| C75 | Proxy superset means superset | Finite case analysis over proxy types, for all calls. |
| C76 | NonTransfer proxies cannot move funds | False (counterexample); exact allowed set proved. |
| C77 | Restricted proxies stay inside their pallet | Case analysis. |
| C78 | Scheduler privilege comparison is sound | Case analysis over origins. |
| C79 | The exported call list singles out exactly the calls outside five pallets | Case analysis. |
| C80 | Authentication challenges are fresh | False for future blocks (counterexample); proved for past contexts. |
| C81 | Address lookup resolves communities by index and accounts by id | Direct. |
| C82 | Each governance track is reachable only by its own origin | Case analysis over origins. |
| C83 | Only members submit community referenda | Direct on the origin checks. |
| C84 | Weight fees never decrease with weight and charge the scarcer resource | Arithmetic of the fee polynomial. |
| C85 | Contracts can only call plain transfers | Case analysis. |
| C86 | XCM weights bound unsupported instructions out | Model of WeightInfoBounds summing instruction weights. |
| C87 | A voter's freeze is exactly the largest standing lock | False with several memberships per account (counterexample); invariant over histories without them. |
| C88 | A proxy cannot grant more than it has | Induction on the nested dispatch of Runtime/Calls. |
| C89 | Nesting never lets a restricted proxy act outside its type | False through two mutual Any proxies (counterexample); proved by induction on nesting when no proxy call is reached. |
| C90 | Collective decisions need their declared majorities at every moment | Curve arithmetic on the table of tracks. |
| C91 | XCM weights cover the benchmarked cost | False for deposit_asset and claim_asset (counterexamples); proved for the other instructions, and the sum exactly. |
| C92 | Only the relay chain and its executive body run XCM for free | Model of the barrier combinators over all messages; induction on the computed prefix. |
| C93 | An XCM message acts only as its sender | Invariant of the executor's origin register over all runs and failure points. |
| C94 | A dispute can be settled as the resolver decides | False: a beneficiary who spends their free balance blocks a split in the sender's favour (counterexample); sufficient and necessary balances proved. |
| C95 | Every successful payments call announces itself exactly once | Case analysis on every call, lifted to every step of a history. |
| C96 | On Kreivo only root settles disputes and the treasury collects | Invariant on the records Kreivo stores, then the exact moves of C24 specialised. |
| C97 | The beneficiary has two days to dispute a refund | False: the window is one day (counterexample); one day, less 18 seconds, proved for every chain of blocks (C169). |
| C98 | Only root and two chosen communities deploy contracts | Decision table of the two origin checks, for all origins. |
| C99 | Registering a pass costs the signer exactly the existential deposit | Decision table with the deposit. |
| C100 | Only Kreivo's root spends from its treasury | False: the relay chain account with the same bytes acts as Kreivo's treasury (counterexample message); all other routes excluded over all messages. |
| C101 | Automatic work leaves room for transactions | False: hooks may use 115% of a block (counterexample); model of CheckWeight, invariant over all blocks, exact acceptance below a quarter. |
| C102 | Storage deposits are linear | Arithmetic. |
| C103 | The balances API lists exactly what an account has | Model of the API on top of the id conversion of C67 and C68. |
| C104 | Collators are administered only by root and the relay chain's staking admin | Decision table, combined with the origin invariant of C93. |
| C105 | Messages move assets, they do not create them | False: any sibling mints assets of Asset Hub (counterexample message, past the barrier). Value-carrying model of the executor with an oracle for failures, charges and refunds; conservation by invariant over steps and messages. With the prices of C121 also false for the native token: refunds can exceed what was paid (C105_trader_mints_fails); that nothing else is so created is proved. |
| C106 | A message spends only from accounts of its sender | Invariant over the steps of the executor: the origin stays inside the sender, withdrawals use the account of the origin. |
| C107 | No message of another chain stops the chain | False: any parachain's message naming a local asset index beyond 32 bits panics (counterexample message, past the barrier); never for any other messages, by invariant. |
| C108 | Trapped assets wait for their owner | Invariant over steps for the traps of others; direct for claims and leftovers. |
| C109 | Payments on Kreivo never collide | False: payments of two communities enacted in one block share an id (counterexample history). Model of blocks, hooks and extrinsics over the payments model; the invariant that ids in use are older than the current extrinsic gives freshness, from it indexing and task matching. |
| C110 | Votes in the collective count once, with the member's rank, and are all counted | Model of both instances of pallet_referenda with the ranked collective, the communities and the scheduler (Governance/Referenda). Every call comes down to a leaf (ReferendaLemmas); invariants by induction over histories. |
| C111 | Nothing acts as root without a decision of the collective | Invariant over histories: until a root proposal is approved nothing scheduled is root, tracks and referenda are those of communities, and ranks are those of genesis. Approvals are traced back to the state in which the tally passed. |
| C112 | The collective can always act | False: without a ranked member at genesis (local chain specification) nothing is ever approved (_fails, invariant). With one, unanimous votes pass at every moment and servicing approves (_partial). |
| C113 | Approved proposals are carried out | False: both instances name their tasks by the index only, so a waiting call of community referendum k makes the scheduler refuse the call of referendum k of the collective (counterexample history, and it is never scheduled later). Otherwise scheduled as asked (_partial). |
| C114 | A community acts only by its own approved referendum | Trace of the approval as in C111 and the invariant that a tally with ayes has an earlier aye vote of a member. |
| C115 | A referendum of a community needs a quorum | False: the support threshold falls to 0, one aye among any number of members passes at the end of the decision period (_fails, also a history with a hundred members). The support needed after e blocks is proved (_partial). |
| C116 | Calls are charged for the storage they read | False: unlock walks over all locks of the account for a constant charge (_fails for every number of reads, by induction on the number of polls voted in). Exactly when the charge suffices is _partial. |
| C117 | Every call that can succeed fits in a block | Weight tables of the three pallets as functions of the call; linear arithmetic against the limits of Runtime/Block. |
| C118 | A signed transaction takes effect at most once | The extensions of SignedExtra in their order as a function of chain, transaction and surroundings; the nonce of an account over any history by induction, modulo 2^32. False for authenticate, which skips the nonce (_fails, with the challenge of C80, in every state), and for immortal transactions of removed accounts (_fails); what holds of the others and of mortal ones is _partial. |
| C119 | A transaction pays the fee for what it used, once, to the treasury or the author | Fee, conversion, withdrawal and settlement as functions on balances; each theorem says what every balance and the issuance are afterwards, for any state the call leaves behind. |
| C120 | Full support of a poll means the support of the whole community | False by rank (a unanimous community has 25%, a single member without weight has 100%) and by native currency (0.005 of ten million coins are 100%), on reachable states (_fails). By membership and small issuances it holds (_partial). |
| C121 | An XCM message pays exactly for the weight it uses | The two traders and the executor's account of surplus weight as functions; the value-carrying executor of C105 with prices in place of its oracle. Price, surplus and takings by invariants over steps, for all messages. False: the relay token trader refunds the fee of a weight, and the fee is a maximum of two parts, so two refunds give back more than was paid (_fails), the difference is minted to the holding (C105_trader_mints_fails), and time can be used for nothing (_fails). With one purchase and no explicit refund, or paid by another asset, it holds (_partial). |
| C122 | Only root creates assets, and existing assets are left alone | The calls of pallet_assets as functions; a case analysis of what every call can do to one asset. False: whoever has authority over a community creates any unused asset by set_decision_method, with any minimum, after which root cannot (_fails). Who creates assets, exactly, is C122_who_creates_partial; that existing ones are left alone holds in full (C122_existing). |
| C123 | A community that decides by a new asset gets to use it | False in both directions. All roles go to the account of community 0, whichever community chose the asset (C123_owner_fails). If community 0 is not registered, by induction over histories without root and without accounts that count as community 0, nobody ever holds the asset and every vote in every poll decided by it fails (C123_nobody_votes_fails). If someone has authority over community 0, they mint the asset of every community (C123_zero_mints_fails). Only the issuer issues: C123_only_issuer. |
| C124 | A community decides who its members are | The calls of pallet_nfts (its instance for memberships) as functions on top of the communities and manager pallets, closed under dispatch_as_account; case analysis of what each call does to the holders. Exactly who makes members and how members leave (given by the holder or an approved delegate, bought, swapped, minted, burned), that an item has one holder, that only the holder prices, approves and offers it, that a new holder is bound by none of it, and that only root or the owner takes a collection over hold in full; that the community is asked is false: members give and sell their memberships (_fails). With the collection frozen or all items locked, which the community can do (C124_can_freeze, C124_can_lock), only the community and root make members (C124_locked_partial). |
| C125 | Every member's membership was made by create_memberships and paid for | add_member uses up one membership of the manager's collection, whose items appear only by create_memberships, at the hands of the collection's admin or by being returned, and buying pays the holder exactly the price; likewise for swapping and minting. That all memberships come from there is false: a community mints items of its own collection, for nothing, and their holders vote (_fails). |
| C126 | A community with memberships left can add a member | add_member takes the first item of any collection that the community's account holds. If it holds memberships to give out only, adding succeeds (_partial); it burns anything else (C126_burns_junk). Somebody else's membership sent to the account makes add_member fail until then (_fails). |
| C127 | One proposal at a time is decided on a track | The referenda machine of C110–C114 (Governance/Referenda.lean): by induction over its histories, two referenda of the collective being decided on the same track are the same one; when a community referendum begins to be decided, no list of different referenda being decided on its track is longer than the track's limit; and a prepared referendum with a free slot begins to be decided when serviced. pallet_referenda keeps a counter and a queue; the model counts the referenda and lets any waiting one begin, so the order of the queue is not covered. |
| C128 | Referenda are decided by present members | False of the code (_fails for the collective and for communities): votes of members that leave stay in the tally, and can decide a referendum on their own. The votes of members who stay are those of present members, with the rank they have (_partial), by induction over histories. |
| C129 | Assets sent away go through the chain that keeps them | Xcm/Transfers.lean models the calls of pallet_xcm with Kreivo's configuration on top of the executor of C105–C108: how an asset travels (`determine`), the code executed on Kreivo and the messages sent. False of the code (_fails): every chain counts as a reserve of Asset Hub's assets (C70), so Tether sent to a sibling is destroyed here and the withdrawal is ordered from that sibling. For all other assets, and for Asset Hub's sent to Asset Hub, the messages go to the own reserve (_partial). When the caller chooses the way (transfer_assets_using_type_and_then) the choice is theirs and only C130–C132 apply. |
| C130 | Sending assets takes exactly what is sent | Same model; each leg of a call is shown to move exactly its assets (`Moved`, Xcm/TransferSpec.lean), and legs compose. `Carries` says what the messages contain. |
| C131 | Names in messages mean the same on both sides | `reanchored` of staging-xcm is modelled (inversion of the target, prefix, simplification) and shown, for every context, target and location, to keep the absolute path; Kreivo's UniversalLocation has a wrong first junction (GlobalConsensus(Polkadot) before GlobalConsensus(Kusama), xcm_config.rs 44-48), which is shown not to matter for targets up to two levels up. |
| C132 | Sending assets never stops the chain | False of the code (_fails): sending an asset of Kreivo with an index beyond 32 bits panics in the conversion of ids (C69), whoever calls and whatever they own. No other asset does (_partial). |
| C133 | Trapped assets are got back by their owner, once | Same model: claim_assets executes ClaimAsset and DepositAsset; exactness and success are proved for all traps. |
| C134 | Units of an asset move only by the hand of their holder or the asset's admin | The calls of pallet_assets as in C122 and C123 (Communities/Assets.lean, with Kreivo's configuration), made directly or through dispatch_as_account. Who, how much (`UnitsMoved`, `Due`) and that the books balance (`Books`, by induction over any sequence of calls) are stated outright. |
| C135 | Seats in the collective change only as described | Same model as C110–C115; each of the four calls is stated outright with its exact conditions (`Reseated`), and `SeatMove` lists all ways a seat changes in one step of the chain. |
| C136 | A community's name is text and is kept as the name of its track | The UTF-8 check of register (Governance/Manager.lean) against the encoding of characters in Lean's library (`String.utf8EncodeChar`); that any text is accepted and nothing else, for all byte strings; what becomes of the name is stated about the resulting track. False for communities registered with a track of their own. |
| C137 | Referenda leave time to vote and come to an end | The transition system of C110–C115 with the tracks' numbers as literals; when a step rejects or times out, and an invariant (past the decision period the confirmation is never restarted) over all continuations. |
| C138 | Assets sent to Kreivo arrive, less the fee | The executor of C105 with the traders of C107, run on the message `transfer_assets` of other chains sends; the resulting balances and traps stated outright for all amounts, prices and reserves. |
| C139 | Messages withdraw, transfer and deposit exactly what they name | The effect of single instructions in the executor of C105: the resulting balances and holding stated outright, with an exact condition for success. |
| C140 | Deposits of referenda are given back, and lost only by a kill | A ledger of free and reserved balances under the deposit rules of pallet_referenda (Governance/Deposits.lean) with both instances' configuration; an invariant that what is reserved is what other pallets reserved plus all deposits not given back, by induction over histories; the effects of the calls stated outright. |
| C141 | Calls on assets and by proxies fit a block and are charged for what they touch | The weight files as functions from calls to weights (Runtime/AssetWeights.lean); fitting as in C117; what is charged compared with a separate table of the items each call touches (the pallet's benchmarks), in which transfer_all is a transfer. |
| C142 | Fees follow the use of blocks, slowly, and never vanish | TargetedFeeAdjustment with the parameters of SlowAdjustingFeeUpdate and the limits of Kreivo's blocks (Runtime/Multiplier.lean), fixed-point rounding included; direction and rate for one block, induction over the blocks, the bound for 7200 blocks by evaluating the powers in the kernel; carried over to computeFee of C119. |
| C143 | Scheduled refunds are carried out, late at worst, once, and do not crowd each other out | The service loop of pallet_scheduler (tasks of an agenda by priority, agendas since the first incomplete one, a weight meter, postponement and giving up) with Kreivo's limits and the weights of payments (Runtime/Scheduler.lean). Delay by induction over the number of tasks in the agendas up to the task's own, which falls in every block in which the task does not run; at most once by permutations; the number of requests by an invariant of the block builder of C101. |
| C144 | Referenda are stopped from outside only by the authority named for it | The governance machine of C110-C113. Decision logic of the four calls stated outright; the histories by induction, with what each call that wraps no other may do (ReferendaLemmas.lean) and C111 for where scheduled origins come from. |
| C145 | A refund that was asked for is carried out in time, once, and only then | The machine of payments (C19) and the scheduler (C143) put together as one transition system (RefundChain.lean): calls put tasks on agendas and take them off, and only what the scheduler chooses runs. Two invariants by induction over all histories: every pending refund that is not due is on the agenda of its block, and every refund the scheduler holds is pending, once. Then progress: a measure over the agendas up to the refund decreases in every block. |
| C146 | Nobody acts for the accounts the runtime keeps for itself | A machine that dispatches calls one after the other while proxies and the other tables change; invariant over its histories: no proxies, nothing to dispatch in the account's name. With constant tables the machine dispatches exactly what `reached` lists (`quiet_reached`). |
| C147 | The treasury's pallet pays nobody and burns nothing | pallet_treasury's calls and hook with Kreivo's configuration; invariant over histories that nothing is approved or due. |
| C148 | Nobody is restricted when acting for themselves | Induction over the nesting of batches in the calls `reached` lists. |
| C149 | Granted funds stay with the account until they are released | pallet_vesting and what pallet_balances does with locks, function by function, with a ghost list of grants per account. Invariant: the lock covers the stored schedules, which cover the grants from now on, which the account's funds cover. A merged schedule covers both since a convex release lies under its chord. |
| C150 | The vesting lock holds back only transfers and reserves | Outright characterisation of when funds leave, are reserved and are held, and a reachable account that cannot pay a fee. |
| C151 | Merging schedules does not put off the release | A counterexample by rounding, and a bound: at most twice the time left. |
| C152 | Only a payment's own text names it | The functions of payment_id.rs for text and numbers; base58 is inverted on its digits. An id whose last byte is zero, as in all blocks below 2^24, has a second text, that of the bytes before it, which is the counterexample. |
| C153 | Stored data reads back as written | Codecs as pairs of an encoder and a decoder, with the laws `Ok`; one lemma per type, built up from integers, options, pairs and bounded vectors. |
| C154 | Each key has its own entry | Raw storage from bytes to bytes, keys as prefix, hash and encoded key; hash functions are arbitrary functions of fixed length. |
| C155 | A multisig acts only when enough of its signatories agree | pallet_multisig function by function with a log of what happened. Invariant: the approvals of an open operation are different signatories who agreed since it was last closed; what is held is the sum of the open deposits. Signatories: exactly the sorted lists of two to a hundred accounts; a whole round of approvals by induction on those who follow the first. |
| C156 | What a transaction will cost can be asked beforehand | The fee questions of the runtime API on top of the charge of C119 and the multiplier of C142; exact effect of an accepted transaction on its payer. |
| C157 | Bonds of collators are reserved exactly, and come back | pallet_collator_selection as a transition system (Runtime/Collators): invariant over all reachable states that the reserve of each account is its bond; growth of a reserve by cases of the call. |
| C158 | The highest bonds are chosen, and a place is lost only for a reason | Same system: the candidates are sorted by bond at all times, hence the choice takes the highest; each step keeps each candidate but for the listed reasons. |
| C159 | There is always somebody to make blocks | Same system: false for the administration's calls (two witnesses); proved what holds for all other steps, and exactly when somebody is chosen. |
| C160 | A transaction goes in only where and while it was signed for | The first five signed extensions of the transaction model of C118, against a specification of what a signature was made for; histories by induction. |
| C161 | The generator makes the named chain or says which there are | `main` with the file system and the specifications as parameters and any order of the table's keys; the fold with commas by induction. |
| C162 | A local chain starts with the accounts, collators and keys it was given | `local_genesis` and the genesis of balances, collator selection and session after it; keys by induction over the list, consistent with the model of C157 to C159. |
| C163 | Deposits of proxies are reserved exactly and come back | Transition system of pallet_proxy with Kreivo's deposits and a shared reserve; invariant over histories; witnesses with pure accounts. |
| C164 | A delegate acts for an account only as named, and with a delay only after announcing the call | The same, with the list of successful calls as history; invariants relate proxies and announcements to the calls that made them; counting for `once`. |
| C165 | A delay leaves the account time from the moment it is granted | The same, from any state on; a witness in which an older announcement counts. |
| C166 | Deposits for preimages are held exactly and come back | Transition system of pallet_preimage with Kreivo's price; every step changes tickets and holds in one of three ways; the sum over the list of tickets by induction over histories. |
| C167 | The call of a proposal is there when it is due | The same with proposals and tasks: as long as root does not interfere, requests are at least as many as tasks, so bytes are removed only after the last task; a witness in which the depositor takes the call back before approval. |
| C168 | Time goes forward with the relay chain | Model of the checks of pallet_aura, aura_ext, pallet_timestamp and parachain_system on slot, time and relay block with Kreivo's parameters; an invariant over chains of blocks; acceptance characterised exactly. |
| C169 | Periods counted in blocks last their time | From the same: two blocks per slot and three blocks not included give the bounds by induction over the chain and over relay blocks; a chain of four blocks that meets the bound. |
| C170 | The author of a block is who made it | Model of the hooks in the order of the runtime; invariant: authorities and validators are two columns of one list (or there are no validators); keys belong to one account each. |
| C171 | Chosen collators serve one session, from the end of the next one | The same model: which session change the queue and the validators come from, by induction over blocks; turns by arithmetic. |
| C172 | Messages of a chain are executed in order, none twice, none lost | Model of pages, books, arrival, service, paid execution and reaping; invariant over all histories: turns followed by what waits are what was taken; counts for what was done, set aside and forgotten. |
| C173 | Every message that arrives is taken | Model of how arriving pages are cut into messages and when one is refused; exact conditions; a message of 65532 bytes as a counterexample. |
| C174 | Every chain gets its turn | Model of the ring of queues; a measure: the place in the ring falls each block, and a queue at the head makes a turn or comes to a page on which it will. |
| C175 | Sending a message to another chain costs the declared delivery fee | Model of the router and of both prices, the one in use and the one declared; decision of the routes; the price in use is below the declared one for every message. |
| C176 | Messages to a chain leave in order, once, and none is lost | Model of channels, pages, signals and the loop that hands pages over; invariant over all histories: pages gone followed by pages waiting hold what was taken; a channel reported closed, or smaller, as counterexamples. |
| C177 | No channel to another chain starves | On the model of C176: a measure, the number of channels before the one that waits, falls with every block in which it hands over nothing; a page as long as the channel holds as counterexample. |
| C178 | Chains that ask to stop get no messages; signals always go out | On the model of C176: the mark of a channel that stopped, and a signal, stay through every step that does not let them go; the measure of C177 for signals. |
| C179 | Only the collective settles disputes about payments | One machine with the referenda of C110 to C112 and the payments of C01 to C35, in which a call may come down to a payments call. Cases over the steps: review ends by two calls only; a call made as root needs root at the outside, which only scheduled calls have, and those need an approved proposal (C111). |
| C180 | Every dispute about a payment can be settled | On the machine of C179. Without ranked members nothing runs as root (C112), and the escrow of a payment under review stays held: as escrow, or for good if the sender pays once more (C23). With members who agree, a history is constructed from C112 and C94. |
| C181 | Every call of the communities pallet announces itself, once | The specification Tells lists for each call what its event must say, in terms of the states before and after. Cases over the calls of the model and induction over nested calls. |
| C182 | The events tell which communities there are and who administers them | An observer's knowledge is folded over the events and compared with the storage, by induction over the history; on Kreivo's manager the announced communities are counted. The part about the first admin is refuted by two registrations with the same events. |
| C183 | The events tell how the votes on a referendum stand | The standing vote of an account is folded over the events and compared with the record of votes, by induction over histories in which each account votes with one membership. Refuted for an account with two memberships. |
| C184 | A community's funds go into payments only at its word | The joint machine of governance and payments of C179 with the specification SpeaksFor, which lists inductively who speaks for a community. Case analysis of every payments call on the balance of an account that pays no fees, then induction over the wrappers around the call, and the shape of the agenda by induction over the history. |
| C185 | The events tell which payments there are and how they stand | The beliefs of an observer are folded over the events and compared with the stored payments, by induction over histories in which no id is given twice. The parts about parties, requested amounts and the decision are refuted by pairs of histories with the same events. |
| C186 | What is kept for root is done only by decision of the collective | Governance is run beside an arbitrary other part of the state whose changes are labelled with origin and call. Induction over histories, with C111 and C114 for the origins on the agenda. |
| C187 | The runtime is replaced only by code the collective asked for, one at a time, when the relay chain agrees | frame_system's and parachain_system's upgrade calls are modelled over abstract codes and hashes; the condition that a code is in place, pending or authorized is put into C186. |
| C188 | Whatever runs as a contract was let in by the collective | The codes and contracts of pallet_contracts, with contracts asking for further ones, are modelled; two conditions on them are put into C186. |
| C189 | Native funds leave an account only by its own hand or by decision of the collective | All calls of pallet_balances are modelled; the condition that an account has less than some amount is put into C186, and transfers are computed. |
| C190 | The native issuance on record is the sum of all balances | The sum over a finite set that holds all accounts with funds is followed through every call; its failure is put into C186. |
| C191 | Over its whole life a payment moves exactly what its outcome says | `changedBy` adds up how the actions about one payment id change a quantity of the ledger. One lemma says that a step of an open payment either leaves the totals alone and follows the escrow, or is one of five ends; induction over the history adds the steps up between pay and end. |
| C192 | A community that closes its collection decides who its members are | Histories of the machine of C124 with blocks passing. Closedness is kept by every step that is not made by root or with authority over the community (from C124_keeper, C124_stays_frozen and C124_minting_opened_by_admin); induction over the history with the one-step theorems at the level of items. |
| C193 | Blocks are made by the invulnerable and by the candidates with the highest bonds | Runtime/Serving puts Runtime/Sessions and Runtime/Collators together into one chain of blocks, with hooks in the order of the runtime. A chain is projected to one of Runtime/Sessions, in which whom collator selection chooses is what Runtime/Collators assembles, so that C171 applies; the limits of the lists (100 and 1000) are an invariant. The specification (HighBond, ClearBond) counts bonds, without an order of candidates. |
| C194 | A collator loses their place for idleness only after having had a chance to make blocks | In the same model. An invariant bounds from below the record of the last block of a candidate. False in two ways, both shown on chains: who registers in the block in which a session ends is dropped in the very block in which they begin to serve, and who is never chosen is dropped as well. What holds: who made a block in the last six hours is kept; nobody who never made a block is dropped before twelve hours; and who registers in any other block and is chosen at the first opportunity has had a whole session. |
| C195 | A community does only what more of its votes are for than against | In the model of Governance/World: every step moves votes and polls only in ways that the proofs of C49 and C50 allow, so the tally of an open referendum is the sum of the votes on record, in histories that change no weight of a standing vote; with one vote per membership no history does, and the sums are numbers of votes. Together with the thresholds of C66 and C115 and the one step that approves. False with decisions by rank: a member votes, is demoted, and takes the vote back, and what stays in the tally approves a referendum that the only vote on record is against. |
| C196 | Members of a community who agree get their proposal approved | The converse of C195, by the same tally: the thresholds of the default track are met by half support and full approval at once, and by half approval after 255 blocks; the one step that rejects needs a tally that does not pass. False with decisions by rank: memberships begin with rank 0, and if all members still have it their votes weigh nothing, so what all of them vote for is rejected. |
| C197 | The collective rejects only what the majority it asks for is not behind | The converse of C111: at the end of the decision period the thresholds of the tracks are their floors (C90), the tally is the sum of the votes on record (C110), and the one step that rejects needs a tally that does not pass. |
| C198 | A coin counts at most once in a vote | The communities model with freezes and balances; the invariant that what is frozen is there, by induction over histories whose money movements leave what is frozen and in which no account has two votes in a poll, summed over the voters, who differ. The balances pallet's calls are shown to be such movements. With two memberships one account casts the same coins twice: shown by a reachable state. |
| C199 | What is teleported away stays behind | The executor model: the effect of the instruction that teleports away stated amount by amount, with the account given by its bytes; that nothing leaves it follows from C106 and from the accounts parachains have. |
| C200 | Who takes units of an asset from an account, and when | The 28 calls of pallet_assets on balances, approvals, accounts and roles, with freezes, as Kreivo configures them (Runtime/AssetPallet.lean). `Taken` lists the ways units go, `Spends` how much; every call is compared with it. |
| C201 | Units frozen for votes stay on their account | From C200: each way units go, but one, leaves what is frozen. The exception, `refund` with burning by the holder, is shown to take frozen units and the freeze with them. |
| C202 | A delegate takes no more than it was given leave for | Induction over histories: what a delegate asked for and may still ask for is at most what was given. That it takes exactly what it asked for holds unless a rest below the minimum goes along, which is shown to exceed the leave. |
| C203 | The units of an asset and its supply | Every step of the model is a sequence of small acts on the record (AssetBooksLemmas); the sum over accounts changes with the supply in each but those that destroy an account with units on it. |
| C204 | Deposits for asset accounts and approvals come back | The same acts: reserves change with the deposits recorded on accounts and approvals, summed over all of them. |
| C205 | An asset that is destroyed leaves nothing, and destruction can be finished | The same acts: the counters of the record are the numbers of accounts and approvals. That destruction can be finished is shown by induction on them, with the calls given. |
| C206 | Who runs an asset | `Amended` lists the ways the charter of an asset changes; every call by every origin is compared with it. |
| C207 | Batches do what their calls do | The calls of pallet_utility over any set of plain calls and states, as mutually recursive functions on nested batches; each kind by induction over its calls, and the reduction to plain calls by mutual induction over the nesting; the histories of governance and payments are closed under batches, scheduled ones by running their plain calls from the agenda one after the other. |
| C208 | Units of an asset arrive only where they may | The assets pallet as for C200; case analysis over all calls for what arrives, induction over histories for the bounds and the minimum. |
| C209 | Deposits for assets are the caller's and come back | The assets pallet as for C204; case analysis over all calls. |
| C210 | A pass acts only when one of its devices vouches for it | Runtime/Passes: registration, devices, logins, sessions and dispatches of the pass pallet with the challenger and origins of the configuration; Runtime/PassTheorems: by induction over histories every act traces back to a credential, every device to a registration or the pass itself. |
| C211 | Sessions of a pass last as long as asked for and no longer than the maximum | Same model; where each session comes from, by induction over histories; liveness over arbitrary events that leave the session alone. |
| C212 | A credential serves only the one who made it | Same model; the challenge depends on the block only, so the credential is accepted for any signer: refuted for every credential that is accepted; what holds is the window of three blocks, the account and the authority. |
| C213 | The collators' pot goes to those who make blocks | Runtime/Rewards: `note_author` over the balances pallet of Runtime/Balances; induction over histories. |
| C214 | Nobody speaks for Kreivo on other chains | Xcm/Speech: the messages that leave, and the origin register of the executor that receives them, with any rules; induction over runs with any failures. |
| C215 | A voter can afford to take back their stake | False: a vote with all that is left is accepted, and then no transaction of the voter is valid (witness). Proved: the exact condition under which voting and unlocking succeed as transactions, on the communities model composed with the charging of fees. |
| C216 | Votes cast in an asset are of units their voters keep | False: the voter can give the account up with the units frozen on it (counterexample history), and with locks in two polls cannot remove either afterwards. A joint machine of the two models; careful histories refine those of C198, the freezer's book agrees with the locks throughout. |
| C217 | Every message comes to an end | The executor of C105 and that of C92 with their registers. The instructions in all registers are fewer after each one that is tried; twice their number, plus one when the code is empty, decreases with every step until nothing is left. The count of the weigher is the same count. |
| C218 | Stored entries take no more room than their weights charge | On top of the byte-exact encodings of C153 and the maps of C154: the length of every key and value is bounded by composing the bounds of the parts, and a largest entry is exhibited for every map; the sizes are those written in the weight files. |
| C219 | How long blocks get | Runtime/BlockLength.lean models the length limits of the runtime and the length and weight checks a transaction passes; an invariant over every way of filling a block relates the running length to the bytes of what went in. |
| C220 | A transaction its payer can pay gets into the next block | Runtime/Transactions.lean already has the chain of extensions; Runtime/NextBlock.lean characterises inclusion exactly from a separate specification (signed for, exists, next nonce, fits an empty block, can pay), and carries it over every history to the next block. |
| C221 | A code the collective decides to set replaces the runtime | False for set_code: ParachainSystem (pallet 1) drops the validation data at the beginning of a block, the scheduler (pallet 45) makes its calls after that and before the inherent brings new data, and without it no code can be scheduled. Proved for every list of calls of the scheduler (induction). What holds: authorizing in the scheduler and handing in after the inherent. The order of hooks is that of the runtime's pallets; the check is cumulus's (outside the repository). |

## Trusted base

### Lean

* Lean's kernel (4.33.0) and the axioms `propext`, `Classical.choice`, `Quot.sound`. No axiom is added, and nothing is
  accepted by compiled evaluation. The table "Theorems and their axioms" at the end lists which of the three each theorem uses.
* Mathlib is imported for tactics and for lemmas about lists and finite sums. All of it is checked by the kernel.
* That the Lean definitions say what the cited Rust lines say. Every definition carries the citation. Where it simplifies,
  its comment says so.

### Language and build

* Release builds: unsigned arithmetic written with plain operators wraps, because Cargo.toml does not turn on overflow checks.
  `saturating_*` and `checked_*` are as named. An index out of range, an `unwrap` or an `expect` that fails is a panic, an
  explicit value in the model.
* `repr(C)` structs of little-endian integers are their bytes in order (payment ids). wasm32 is little-endian.
* Cargo features: `paseo`, `runtime-benchmarks` and `try-runtime` are off.

### FRAME

* A dispatchable that returns an error changes nothing (storage transactions).
* Storage maps are functions. For the maps of the communities and payments pallets this is proved from raw storage for arbitrary
  hash functions (C154), given that the names of the maps hash differently. Hashes used as names or account ids (blake2_256) are
  assumed injective, and `(LOCKS_ID, index)` style task names are used as they are written.
* The encoding rules of parity-scale-codec for integers, booleans, options, tuples, derived structs and enums, compact lengths and
  bounded vectors are those of Base/Codec (C153).
* Signed extensions run in the order in which lib.rs lists them: all `pre_dispatch`, the call, all `post_dispatch`;
  `CheckNonce`, `CheckMortality`, `CheckWeight`, `ChargeAssetTxPayment`, `SkipCheckIfFeeless` and pallet_pass's
  `ChargeTransactionToPassAccount` behave as written in Runtime/Transactions and Runtime/Charge.
* `BlockWeights` builder, `CheckWeight`, hooks before extrinsics, `extrinsic_index` 0 during block initialization (C109).
* Decoding a call nested more than 256 deep fails (C117).
* `frame_system::block_hash` is zero outside its window of `BlockHashCount` blocks (C80).
* `RocksDbWeight` is 25 µs per read and 100 µs per write. `ExtrinsicBaseWeight` is a parameter between 10^7 and 10^9 ps.
* The assets and proxy pallets give their weight functions the limits (`RemoveItemsLimit`, `MaxProxies`, `MaxPending`) or the lengths of the strings; a call a proxy carries adds a read, a write and its own weight. `transfer_all` touches the items a transfer touches.

### Pallets outside /repo

* Asset ledger (`fungibles` with holds; Payments/Ledger): a successful `hold` moves exactly the amount from free to held,
  `release` (Exact) the reverse, `transfer` moves the amount (Preserve keeps the minimum; Expendable may sweep or burn dust
  below the minimum), `transfer_and_hold` moves free balance of the source to held balance of the destination. Any operation
  may be refused for any further reason (an arbitrary oracle per call); refused operations change nothing. Between calls anything
  may happen to free balances and to the minimums of assets; what is held for payments changes by payments only.
* Freezes: `set_frozen` with `Polite` fails above the balance and otherwise sets the freeze. In Communities nobody else changes what is
  frozen (C52, C54); in Governance/UnitVotes (C52, C216) the record of pallet_assets_freezer is the same one that votes write, and it goes
  when the account goes. Minimum and team of an asset in the two models are not tied to each other.
* Fees beside votes (C215): the fee is taken before the call, out of what is neither frozen nor the minimum; there are no other freezes,
  holds or reserves of the voter.
* Scheduler: `schedule_named` fails when the name is taken or for other reasons, and stores one task; tasks run only in blocks at
  or after their time; the result of a task's call is ignored; `cancel_named` fails when there is no such task.
* Service of scheduled tasks (C143), as in pallet_scheduler of stable2409: agendas from the first incomplete block to the present,
  each by priority and then place; a task whose handling does not fit ends its agenda, which stays incomplete; one whose call does not fit is tried
  again if something has run in this block and is left for good otherwise; at most fifty tasks for a block; no retries, no periodic tasks.
* pallet_referenda and pallet_referenda_tracks (Governance/Referenda, Governance/Curve): `submit`, `place_decision_deposit`,
  `cancel`, `kill`, `nudge_referendum`, `service_referendum`, `begin_deciding`, `schedule_enactment`, the curves and
  `is_passing`. The number of referenda being decided is counted exactly and the queue has no order (C127).
  Deposits (Governance/Deposits): `take_decision_deposit` and `take_submission_deposit`, `reserve`, `unreserve` and `slash_reserved` of
  pallet_balances; other pallets give back no more than they reserved.
* pallet_ranked_collective: votes, tally and ranks as in Governance/Referenda.
* pallet_nfts: in Communities a record of functions with stated laws (`MgmtLaws`, `GroupLaws`), in Governance/Members its calls one
  by one: `burn` ignores the transfer lock and keeps the disabled settings of the item, `mint` is refused when such settings exist,
  prices are cleared on transfer, a locked item is neither priced, given nor bought. The order in which memberships of an account are
  listed is the order of a list here, of hashed keys on the chain.
* pallet_utility (Runtime/Batches, C207): `batch` stops at the first error and keeps what went before, `batch_all` undoes everything,
  `force_batch` goes on; `as_derivative` dispatches as the account derived from caller and index; `dispatch_as` needs root; a batch of more
  calls than the limit is refused; `batch_all` within `batch_all` is filtered out.
* pallet_assets: `create`, `force_create`, `mint`, `burn`, `set_team`, `transfer_ownership`, `force_asset_status`, `touch` and the like
  as in Communities/Assets; all calls on balances, accounts, approvals, roles and destruction as in Runtime/AssetPallet, with
  pallet_assets_freezer: `refund` looks at no freeze and lowers no supply, a rest below the minimum goes along with what is taken.
* pallet_preimage: `note_bytes`, `do_unnote_preimage`, `do_request_preimage`, `do_unrequest_preimage` as in the branch; hashes have no
  collisions; holds for preimages are released in full (`HoldConsideration`). pallet_scheduler requests a call given by hash when it
  places the task and withdraws the request when the task is done, given up or cancelled; pallet_referenda compares the length on
  submission and does not request the call. Old entries (`StatusFor`) are not modelled.
* pallet_aura, cumulus_pallet_aura_ext, pallet_timestamp and cumulus_pallet_parachain_system check slot, time, relay block and
  unincluded segment as in Runtime/Clock (`FixedVelocityConsensusHook` of stable2409: the slot equals the relay chain's, at most
  `velocity + 1` blocks in it). Included heads are numbers of blocks of the chain. Of the relay chain it is assumed, where stated
  (`Steady`, `Past`), that its slots increase, that it includes at most one block of Kreivo in each of its own, and only ancestors.
* pallet_session, pallet_authorship and the seal check of aura_ext are those of Runtime/Sessions; hooks run in the order of the
  runtime's pallets; pallet_aura ignores an empty list of authorities; pallet_collator_selection always answers.
* pallet_message_queue and the inbound side of cumulus_pallet_xcmp_queue (stable2409) behave as in Xcm/Queue and Xcm/QueueTurns:
  pages, books and the ring; `ProcessXcmMessage` asks for the weight of the message and reports it as overweight otherwise; weights have
  one dimension; the weight a message needs does not change; no queue is paused (`suspend_xcm_execution` is a call of root); default
  thresholds of the queue configuration (drop at 48 pages); the weight reserved for taking messages suffices.
* The outbound side of cumulus_pallet_xcmp_queue and of cumulus_pallet_parachain_system (stable2409) behaves as in Xcm/Outbound:
  pages as lists of messages, signals one flag per channel that always fit, one page or signal per channel and block, rotation of the
  list of channels; `SiblingParachain` and `ParentAsUmp` route as their documentation says. `ExponentialPrice` asks at least the base fee
  and the fee for bytes (its factor is at least one).
* pallet_proxy, pallet_utility, pallet_multisig, pallet_pass, pallet_contracts dispatch nested calls as in Runtime/Calls and
  Runtime/Acting. Proxies come only from `add_proxy` in the account's name and `create_pure`; session keys and credentials only
  act for registered passes. The calls a contract
  makes are subject to `CallFilter`. `instantiate_with_code` needs both the upload and the instantiate origin.
* frame_system's `ParaChainDefaultConfig` has `BaseCallFilter = Everything`: a fresh signed origin may make any call (C148).
* pallet_treasury's calls and hook are those of Runtime/Treasury.
* pallet_multisig: `operate`, `cancel_as_multi` and `ensure_sorted_and_insert` are those of Runtime/Multisig; what it reserves is
  touched by no other pallet.
* pallet_proxy: calls, deposits and announcements are those of Runtime/Delegates (stable2409); `reserve` and `unreserve` of
  pallet_balances work on one reserve per account that all pallets share; addresses of pure accounts are free of collisions and
  nobody has a key to one.
* The genesis of pallet_balances, pallet_collator_selection and pallet_session is that of Runtime/ChainSpec: the asserted
  conditions, the sorted invulnerables, the keys one by one, and the first authorities asked for after the keys are set. JSON
  and sc-chain-spec are not modelled.
* pallet_collator_selection: calls, `start_session`/`new_session` and `note_author` are those of Runtime/Collators; `reserve` of a
  bond either succeeds in full or refuses; what it reserves is touched by no other pallet. pallet_session takes the assembled
  collators as they are (an empty set leaves the previous authorities in place, see Runtime/Sessions).
* pallet_authorship tells pallet_collator_selection the author of each block (C170); `note_author` pays half of the pot beyond the
  existential deposit (C213) and writes down the block (C158).
* pallet_vesting's calls are those of Runtime/Vesting. pallet_balances: `update_locks` freezes the largest lock or freeze whatever the
  reasons of the locks, polite withdrawals (transfers and fees) must leave it covered by free and reserved funds, `reserve` must leave it
  covered by free funds, `hold` may hold frozen funds, a transfer to oneself does nothing (C149–C151). Existential deposits are left out.
* `MINUTES` and `DAYS` of parachains_common count blocks of 12 seconds (`commonBlockMillis` in Governance/Tracks). No theorem
  depends on the value; the periods of governance are stated in these units. As Kreivo's own blocks take six seconds
  (runtime/kreivo/src/lib.rs 350), they would last half as long as their names say.
* pallet_transaction_payment and pallet_asset_tx_payment: `FungibleAdapter`, `FungiblesAdapter`, `BalanceToAssetBalance`; `FixedU128`
  multiplication rounds down. `SlowAdjustingFeeUpdate` of polkadot_runtime_common is `TargetedFeeAdjustment` with a target of a
  quarter, the variable 75/1000000, at least a tenth and at most the largest number; it is applied once at the end of each block.
* frame_system's `set_code`, `set_code_without_checks`, `authorize_upgrade` and `apply_authorized_upgrade`, `can_set_code`, and
  cumulus_pallet_parachain_system's scheduling and `set_validation_data` (stable2409) are those of Runtime/Upgrade. Storage written by root
  (`set_storage`, `kill_storage`, `kill_prefix`) may change the code but leaves the storage of governance alone (C186, C187).
* pallet_contracts: codes, contracts and calls between them are those of Runtime/ContractCode (C188).
* pallet_balances: its calls, `try_mutate_account` and `reducible_balance` are those of Runtime/Balances (C189, C190); whether a
  provider reference can be given up is arbitrary.
* pallet_pass and fc_traits_authn (Runtime/Passes, C210–C212): what `register`, `add_device`, `authenticate` and `dispatch` need and
  change; each may be refused for any further reason and sessions may be removed at any time, so nothing rests on when they are refused or
  removed. A device checks authority, challenge and signature; signatures of credentials are an arbitrary predicate of key and
  credential; a session counts until its last block. `EnsureSignedPays` transfers the payment before the account is made.
* `Perbill`, `Percent`: `from_rational` and multiplication as in Base/PerThing.
* `AccountIdConversion` of `PalletId`: the four bytes `modl`, the id, the sub-account, zeros; the relay chain's treasury is `py/trsry`.
* bs58: big-number base conversion with the Bitcoin alphabet.

### XCM (polkadot-sdk stable2409, XCM v4)

* xcm-builder: the location converters, barrier combinators, `WeightInfoBounds`, `UsingComponents`, `TakeFirstAssetTrader`,
  `EnsureXcm`, `IsVoiceOfBody`; `Assets::from(Vec)` merges equal ids.
* pallet_xcm and staging-xcm: how an asset travels (`determine_for`), the parts executed here and the messages sent for each way, filters for execution and teleports, `reanchored`, `claim_assets`, as in Xcm/Transfers.
* pallet_xcm `send` prepends `DescendOrigin` with the sender's location; messages with assets give the origin up before the caller's program; xcm-executor's forwards and answers; the origin register of executors elsewhere, with any `Aliasers` and `UniversalAliases`; contracts send as their account: as in Xcm/Speech.
* xcm-executor: the origin register, holding, error handler and appendix, traps, surplus and refunds as in Xcm/Executor and Xcm/Traders.
  An operation on the ledger, a transaction or a delivery may fail at any time (an oracle).

### Time

* C97, C168 and C169 speak about the time of blocks, which is that of Runtime/Clock. Everything else counts blocks.

## What of the code is modelled, file by file

Percentages are lines cited by some definition of the model, of all lines. Lines that are not cited are imports, type aliases,
event and storage declarations, benchmarking code, and what the last column names.

| file | lines cited | in | modelled | not modelled |
|---|---|---|---|---|
| pallets/payments/src/lib.rs | 88% | Payments/Model, Payments/Ledger, Runtime/Storage, Payments/Calls | all calls, `on_initialize`-driven refunds, genesis, internal functions | events other than their order and contents in C95; storage versions |
| pallets/payments/src/types.rs | 51% | Base/Codec, Payments/Model, Runtime/Storage, Payments/Ledger | payment record, fees and their aggregation, states | codec derives |
| pallets/communities/src/lib.rs | 68% | Communities/Model, Runtime/Storage, Base/AMap, Runtime/CallWeights | all calls, genesis | storage declarations, errors |
| pallets/communities/src/functions.rs | 81% | Communities/Model, Accounts/Model, Communities/ScanTheorems, Governance/UnitVotes | all functions | `create_community_collection` logging |
| pallets/communities/src/impls.rs | 11% | Base/PerThing, Communities/Model | `ayes`, `support`, `approval` | `unanimity`, `rejection`, `from_requirements`, `setup` (benchmarks) |
| pallets/communities/src/origin.rs | 45% | Accounts/Model, Runtime/Storage, Communities/Model, Xcm/Location | all origin checks and conversions to and from XCM junctions | `try_successful_origin` (benchmarks) |
| pallets/communities/src/types.rs | 45% | Communities/Model, Runtime/Storage, Base/Codec | tally arithmetic, vote weights, states | aliases, `BenchmarkHelper` |
| pallets/communities-manager/src/lib.rs | 78% | Governance/Manager, Governance/Curve, Governance/Members, Xcm/Queue | `register`, `create_memberships`, the default track | storage declarations |
| common/src/payment_id.rs | 78% | Ids/PaymentId, Ids/TextTheorems, Base/Bytes, Payments/KreivoIds | all conversions and text form | its unit tests |
| common/src/multilocation_asset_id.rs | 72% | Xcm/AssetId, Runtime/Storage, Base/Codec, Xcm/AssetNumbers | all conversions | derives |
| common/src/lib.rs | 0% | Xcm/Queue, Governance/Tracks | the widths of community and membership ids (used throughout) | re-exports |
| runtime/common/src/impls.rs | 19% | Runtime/Charge | where fees in assets and native fees go | generic bounds |
| runtime/kreivo/src/lib.rs | 70% | Xcm/Queue, Runtime/Collators, Runtime/Treasury, Runtime/Multisig | signed extensions, block limits, deposits, all `Config`s with behaviour: proxy types, scheduler and its service loop, utility, multisig, collators, sessions, treasury | `construct_runtime` indices beyond those of calls, versions |
| runtime/kreivo/src/impls.rs | 70% | Runtime/Calls, Runtime/CallTheorems, Runtime/Storage | proxy filter and order, privilege order of the scheduler, community lookup of names | the `ProxyType` codec |
| runtime/kreivo/src/payments.rs | 62% | Payments/Kreivo, Accounts/Model, Governance/Disputes, Base/Bytes | fee handler, dispute resolver, id generator, periods | aliases |
| runtime/kreivo/src/contracts.rs | 59% | Runtime/ContractCode, Accounts/Model, Runtime/Calls, Accounts/OriginTheorems | `CallFilter`, upload and instantiate origins | schedule limits, contract execution, the XCM interface of contracts |
| runtime/kreivo/src/apis.rs | 21% | Runtime/Estimate, Xcm/BalanceQuery, Runtime/PoolEntry, Runtime/Charge | the balances query of `FungiblesApi` | the other runtime APIs, which only forward |
| runtime/kreivo/src/constants.rs | 45% | Runtime/Fees, Base/PerThing, Xcm/Traders, Accounts/OriginTheorems | fee curves, deposits, periods | `default_fee_per_second` |
| runtime/kreivo/src/communities/mod.rs | 24% | Accounts/Model, Communities/Model, Governance/Manager | origins and parameters of both community pallets | benchmark helper (two thirds of the file) |
| runtime/kreivo/src/communities/governance.rs | 63% | Governance/Referenda, Governance/Deposits, Governance/Tracks, Governance/Curve | who submits, cancels and kills; tracks; deposits | benchmark helper |
| runtime/kreivo/src/communities/memberships.rs | 49% | Governance/Members | collections, deposits, who creates and owns | benchmark helper |
| runtime/kreivo/src/collective/governance.rs | 71% | Governance/Referenda, Governance/Deposits, Governance/Tracks, Runtime/Preimages | all |  |
| runtime/kreivo/src/collective/mod.rs | 59% | Governance/Referenda, Governance/PresentTheorems | promotion, demotion, exchange, voting | `MemberSwappedHandler` |
| runtime/kreivo/src/collective/tracks.rs | 86% | Governance/Tracks, Governance/Curve, Governance/Deposits, Governance/Referenda | all tracks and `track_for` | names of tracks as text |
| runtime/kreivo/src/governance/origins.rs | 50% | Accounts/Model, Governance/Tracks | all origins | macros |
| runtime/kreivo/src/configuration/monetary_stuff.rs | 78% | Runtime/AssetPallet, Runtime/Vesting, Runtime/Charge, Runtime/Balances | assets of both kinds, freezer, fee payment in assets, fee multiplier, locks, vesting | names and numbers of reserves and freezes |
| runtime/kreivo/src/configuration/system_support.rs | 71% | Runtime/Block, Runtime/Upgrade, Runtime/Passes, Runtime/Clock | lookup of addresses, challenges, who registers pass accounts, how long sessions last | WebAuthn verification (a parameter), parachain-system parameters |
| runtime/kreivo/src/xcm_config.rs | 79% | Xcm/Executor, Xcm/Transfers, Xcm/Barrier, Xcm/Traders | converters, barrier, reserves, traders, weigher, executor configuration, router, delivery fees, queues, calls of pallet_xcm that send or claim assets | version subscriptions |
| runtime/kreivo/src/xcm_config/communities.rs | 74% | Accounts/Model | all |  |
| runtime/kreivo/src/weights/xcm/mod.rs | 87% | Xcm/Weights, Xcm/Traders | all instructions |  |
| runtime/kreivo/src/weights/xcm/pallet_xcm_benchmarks_fungible.rs | 66% | Xcm/Weights | all weights | the comments of the generator |
| runtime/kreivo/src/weights/xcm/pallet_xcm_benchmarks_generic.rs | 82% | Xcm/Weights, Xcm/WeightTheorems | all weights | the comments of the generator |
| runtime/kreivo/src/weights/pallet_communities.rs | 84% | Runtime/StoredSizes, Communities/ScanTheorems, Runtime/CallWeights | all weights | the comments of the generator |
| runtime/kreivo/src/weights/pallet_communities_manager.rs | 37% | Runtime/CallWeights | all weights | the comments of the generator |
| runtime/kreivo/src/weights/pallet_payments.rs | 76% | Runtime/Scheduler, Runtime/StoredSizes, Runtime/CallWeights | all weights | the comments of the generator |
| runtime/kreivo/src/weights/pallet_assets.rs | 91% | Runtime/AssetWeights | all weights | the comments of the generator |
| runtime/kreivo/src/weights/pallet_proxy.rs | 78% | Runtime/AssetWeights | all weights | the comments of the generator |
| runtime/kreivo/src/weights/extrinsic_weights.rs | 23% | Payments/BlockIds, Runtime/FeeTheorems | the base weight, as a parameter within bounds |  |
| runtime/kreivo/src/weights/{block,paritydb,rocksdb}_weights.rs | — |  | database weights of RocksDB as 25 and 100 µs | block execution weight |
| runtime/runtime-constants/src/lib.rs | 32% | Conformance/Fees, Xcm/Queue, Accounts/OriginTheorems, Governance/Tracks | currency units, fees, times | re-exports |
| runtime/runtime-constants/src/weights/* | — |  | the base weight, as a parameter within bounds | the rest |
| chain-spec-generator/src/spec/local.rs | 99% | Runtime/ChainSpec, Governance/CollectiveTheorems, Runtime/Collators, Runtime/Serving | the genesis of the local chain | chain properties, keys from seeds |
| chain-spec-generator/src/{main,common,spec/mod,spec/live/mod}.rs | — |  |  | not modelled: command line tool |

Generated and test code is not modelled: `mock*`, `tests*`, `benchmarking.rs`, the default weights `pallets/*/src/weights.rs` (Kreivo uses
those of runtime/kreivo/src/weights), `build.rs`, code behind `runtime-benchmarks`, `try-runtime` and `paseo`.

## Evidence that the model is the code

The unit tests in /repo pass on the real code. The modules under lean/Verif/Conformance make the same calls in the configuration of the
mocks and compare with the values the tests expect. They are tests, not proofs, and no property rests on them.

| tests | replayed in |
|---|---|
| pallets/payments/src/tests.rs (7 of 8, all but weights) | Conformance/Payments |
| pallets/communities/src/tests (43 of 44, all but weights), which also exercise pallet_referenda, pallet_referenda_tracks and pallet_scheduler | Conformance/Communities |
| common/src/payment_id.rs (2 of 2) | Conformance/Ids |
| runtime/runtime-constants/src/lib.rs (2 of 2) | Conformance/Fees |

The remaining tests in /repo print or bound benchmarked weights and sizes of types.

## Where the code and the property disagree

Each of these properties is false of the code as it stands; the counterexample is the theorem named.

* C08, Payment life cycle follows the documented state machine: `C08_undocumented_edge_fails`. accept_and_pay adds an undocumented move RefundRequested->Finished (proved as _fails); everything else proved, plus immutability of the terms.
* C11, Finished payments are final: `C11_paid_twice_fails`. The record is final over all histories and all other calls fail; accept_and_pay moves funds again (proved as _fails).
* C12, accept_and_pay only fulfils outstanding payment requests: `C12_accepts_any_state_fails`. False of the code: accept_and_pay works in every state (_fails). Partial: it needs a record of the caller and touches no hold.
* C13, Requested payments transfer exactly once and to the requester: `C13_wrong_beneficiary_fails`. Proved when the id index belongs to this sender, over all histories without id collisions, and over histories in which only this id is not given to another sender (C13_own_id_partial); with an id collision the wrong account is paid (_fails).
* C22, Every open payment can be found through its id: `C22_orphaned_fails`. Proved for histories without id reuse across senders, and for one payment if only its own id is not given to another sender (C22_own_id_partial); orphaning witnessed otherwise (_fails). In every history whatsoever a payment is lost only because its id was given to another sender while it was there (C22_lost_only_by_reuse).
* C23, No funds stay held without an open payment: `C23_stranded_holds_fails`. Exact equality for histories where accept_and_pay never hits an escrowed payment; stranded holds witnessed otherwise (_fails), and over all histories their exact amount and that nothing frees it later (C23_held_exactly, C23_stranded_for_good).
* C24, A scheduled cancellation only ever cancels the payment whose refund was requested: `C24_stale_task_fails`. Proved for restricted histories, and for one id if only the actions on it are restricted (C24_own_id_partial); stale task cancels a later payment (_fails). In every history a task was asked for by request_refund under its id and acts only on an open payment to the beneficiary in whose name it was made, exactly as if that beneficiary cancelled (C24_tasks_were_asked_for, C24_tasks_act_for_beneficiary).
* C26, Dispute charges only fees flagged chargeable on disputes: `C26_mixed_flags_fails`. Proved for lists without mixed flags per recipient; mixed flags witnessed (_fails). C26_dispute_charges_by_first says what is charged of any list.
* C28, A payment never costs the beneficiary more than it brings: `C28_beneficiary_loses_fails`. Proved when beneficiary fees do not exceed the amount; a tiny payment with a minimum fee costs the beneficiary money (_fails). On Kreivo exactly when the amount is below the minimum of the asset and the beneficiary is no community (C28_kreivo).
* C37, Parsing never crashes: `C37_long_text_panics_fails`. False of the code: a dash-separated text with more than 12 other characters panics (_fails); the exact panic set is proved.
* C42, Changing an admin never affects other communities: `C42_isolated_fails`. Naming another community's admin as one's own takes them over and leaves that community without an admin (_fails); everything else is untouched (_partial); the exact effect in every case is C42_exact.
* C45, Only a community's own admin sets its decision method: `C45_own_admin_fails`. The code lets the authority of one community set another community's method (_fails); some authority is always needed, and no other call changes a method (_partial).
* C46, remove_member removes a membership of the named member: `C46_named_member_fails`. The membership removed need not belong to the named account (_fails); what is removed is proved (_partial).
* C47, Rank changes by exactly one and the event reports the new rank: `C47_demote_event_fails`. Ranks move by exactly one, saturating; the demotion event carries the old rank (_fails).
* C50, The tally equals the sum of the recorded votes: `C50_rank_change_fails`, `C50_saturation_fails`. False when ranks change or the tally saturates during a poll (_fails); proved for all other histories. For communities that do not decide by rank it is proved whatever else happens, while the sum fits (C50_plain_partial).
* C51, remove_vote undoes vote: `C51_saturation_fails`, `C51_shared_lock_fails`. False under saturation and for locks shared by two memberships (_fails); proved otherwise.
* C52, Frozen funds cover every standing vote lock: `C52_freezer_fails`. C52_frozen_covers: all reachable states of the communities pallet, while nobody else changes what is frozen. With the assets pallet beside, an account that is given up takes the freeze along while its locks stand (C52_freezer_fails); proved for histories without that (C52_freezer_partial). For one account it is proved whatever others do (C52_own_freezer_partial).
* C53, Every counted balance vote is backed by a lock: `C53_backed_fails`. Proved for histories in which no account votes with two memberships in one poll, and for a single account that does not, whatever the others do (C53_own_votes_partial, C53_own_locks_partial); otherwise witnessed (_fails).
* C56, Approval and support are fractions that reflect the votes: `C56_wrapped_sum_fails`, `C56_empty_electorate_fails`. The 32 bit sum wraps and an empty electorate counts as full support (_fails); exact fractions proved up to 10^9, and within two billionths for every total that fits 32 bits.
* C57, Approval is monotone: `C57_aye_lowers_fails`, `C57_nay_raises_fails`. Rounding (by up to two billionths) and wrap-around break monotonicity (_fails); proved exactly for totals up to 10^9, and up to two billionths for every total that fits 32 bits.
* C58, Blocked communities cannot act: `C58_blocked_fails`, `C58_unregistered_fails`. On Kreivo the plain signed account of a blocked or unregistered community is still an authority (_fails); its own origin and admin are refused (_partial).
* C59, Authority over a community comes only from that community: `C59_own_community_fails`, `C59_subset_fails`. The treasury and other plain pallet accounts act as community 0, and a subset has the whole authority (_fails); exact characterisation proved.
* C64, create_memberships mints consecutive ids, all priced, at most 1024: `C64_reports_fails`. Exactly the consecutive ids are minted at the price, to the treasury, up to 1024; the reported number is wrong when the ids run out at the largest one (_fails).
* C69, Location conversion never crashes: `C69_large_local_index_fails`. False of the code: a general index above 2^32 - 1 under the local assets pallet panics (_fails); the exact panic set is proved.
* C70, Only Asset Hub, the relay and asset-issuing siblings are trusted reserves: `C70_any_origin_mints_asset_hub_assets_fails`. False of the code: any origin is accepted for assets located under Asset Hub (_fails); the exact accepted set is proved.
* C71, XCM senders get distinct accounts: `C71_large_indices_collide_fails`. Indices of 65536 and more saturate onto community 65535 (_fails); proved below that.
* C72, Community pluralities map to their own community account: `C72_index_saturates_fails`. Same saturation (_fails); proved for indices below 65536.
* C73, Community origins survive the trip through XCM: `C73_member_is_lost_fails`. The member subset loses its membership id (_fails); proved for the others, with the refused set exact.
* C74, Outgoing XCM from an account speaks for a community only if it is that community's account: `C74_treasury_speaks_fails`. Every plain pallet account speaks as community 0, e.g. the treasury (_fails); the exact set of senders is proved.
* C76, NonTransfer proxies cannot move funds: `C76_fails`. NonTransfer lets payments through, which empties an account in two calls (_fails); native, asset and other transfer calls are refused at any nesting depth (_partial).
* C80, Authentication challenges are fresh: `C80_fresh_fails`. A context in the future passes with the zero hash, for ever (_fails); for past blocks exactly the last three hashes pass (_partial).
* C87, A voter's freeze is exactly the largest standing lock: `C87_freeze_exact_fails`. Proved for histories in which no account votes with two memberships in one poll, and for a single account that does not, whatever the others do (C87_own_freeze_partial); otherwise a freeze can stay for ever (_fails).
* C89, Nesting never lets a restricted proxy act outside its type: `C89_nesting_fails`. A round trip through two mutual Any proxies escapes the type (_fails); without proxy calls inside nothing escapes (_partial).
* C91, XCM weights cover the benchmarked cost: `C91_deposit_fails`, `C91_deposit_cap_fails`, `C91_claim_fails`. deposit_asset is charged no proof size and at most a millisecond, and claim_asset one asset only (_fails); every other asset instruction covers its benchmark and the message weighs the exact sum (_partial).
* C94, A dispute can be settled as the resolver decides: `C94_stuck_fails`. A beneficiary who spends their free balance during the dispute makes a split for the sender impossible (_fails); resolvable whenever both parties keep what fees and shares need, and that need is proved necessary.
* C97, The beneficiary has two days to dispute a refund: `C97_two_days_fails`. The window is 14400 blocks, one day (_fails); a window of one day, less the 18 seconds of C169, is proved for every history and chain of blocks.
* C100, Only Kreivo's root spends from its treasury: `C100_relay_treasury_fails`. The relay chain account with the bytes of the treasury, its own treasury, acts as Kreivo's (_fails); no other origin, sender or message does (_partial).
* C101, Automatic work leaves room for transactions: `C101_hooks_fails`. Scheduler and message queue may take 115% of a block and then no normal transaction fits (_fails); the shares of each class are proved over all blocks, and full room while hooks stay within a quarter (_partial).
* C105, Messages move assets, they do not create them: `C105_sibling_mints_fails`, `C105_trader_mints_fails`. Conservation is proved in full over all messages; that only the own reserve of an asset creates it is false, any sibling parachain mints assets of Asset Hub (_fails); assets for which no sender is an accepted reserve are never created (_partial), in particular local assets, and the native token without the relay chain and without refunds beyond what was paid, which the trader of Kreivo does give (_fails).
* C107, No message of another chain stops the chain: `C107_any_parachain_stops_the_chain_fails`. A message of any parachain that withdraws a local asset with an index beyond 32 bits panics, whatever the state (_fails); messages that neither withdraw nor transfer such assets never do (_partial).
* C109, Payments on Kreivo never collide: `C109_enacted_together_fails`. False when one extrinsic or one block's hooks create two payments to beneficiaries with the same first two bytes, for example payments of two communities enacted in one block (_fails); proved over all other histories of blocks and extrinsics (_partial).
* C112, The collective can always act: `C112_no_members_fails`. False for a chain that starts without ranked members, as the local chain specification does (_fails); with one, unanimous referenda are approved (_partial).
* C113, Approved proposals are carried out: `C113_lost_fails`. False when the two kinds of referenda have approved calls with the same number waiting at once (_fails); scheduled as asked otherwise, and kept until due (_partial, C113_kept).
* C115, A referendum of a community needs a quorum: `C115_one_vote_fails`. False: one aye passes at the end of the decision period in a community of any size (_fails); the support needed earlier is proved (_partial).
* C116, Calls are charged for the storage they read: `C116_charged_fails`. False: the reads of unlock are unbounded for a constant charge (_fails); it is charged enough exactly with at most two locks (_partial). Reads are counted by hand in the model.
* C118, A signed transaction takes effect at most once: `C118_authenticate_fails`, `C118_removed_fails`. False: an authenticate transaction is never checked for its nonce and, with the zero challenge of C80, can be included again for ever (_fails); an immortal transaction of a removed account too (_fails). For all others, and for every mortal one after its era, proved over all histories (_partial). pallet_pass and the extensions are outside /repo.
* C120, Full support of a poll means the support of the whole community: `C120_rank_unanimous_fails`, `C120_rank_single_fails`, `C120_native_fails`. False by rank and by native currency (_fails, reachable states); holds by membership and while the issuance fits (_partial).
* C121, An XCM message pays exactly for the weight it uses: `C121_unpaid_fails`, `C121_two_parts_fails`. Price, surplus and takings hold in full. That a refund is at most what was paid is false: time and proof size refunded apart add up to more than the fee, which is their maximum (_fails, for every sane price list; the message passes the barrier). Proved for messages paying once without explicit refund, or in other assets (_partial). Traders and executor are outside /repo.
* C122, Only root creates assets, and existing assets are left alone: `C122_only_root_fails`. That only root creates assets, as the comment in the configuration says, is false: set_decision_method creates any unused asset for anyone with authority over some community (_fails). Proved: exactly who creates (_partial), and that existing assets change only by root or owner (in full). pallet_assets is outside /repo.
* C123, A community that decides by a new asset gets to use it: `C123_owner_fails`, `C123_nobody_votes_fails`, `C123_zero_mints_fails`. False: the account of community 0 gets all roles, so the asset is either unusable for ever or in the hands of community 0 (_fails, over all histories). That only the issuer issues is proved in full. pallet_assets is outside /repo.
* C124, A community decides who its members are: `C124_community_decides_fails`. False that the community is asked: memberships are ordinary items, which members transfer and sell (_fails). Proved: exactly how members join (_partial) and leave, one holder per item, prices, approvals and offers made by holders only and void for the next holder, who changes the collection and its minting; and that freezing the collection or locking all items, which the community can do, leaves it to the community and root. pallet_nfts, which is outside /repo, is modelled with approvals, swaps, mint settings and pre-signed mints, without attributes.
* C125, Every member's membership was made by create_memberships and paid for: `C125_paid_for_fails`. False: a community is admin of its own collection and mints memberships for nothing (_fails). Proved: add_member uses up a membership, where those come from, and what buying, swapping and minting pay.
* C126, A community with memberships left can add a member: `C126_memberships_left_fails`. False: an item of another collection sent to the account of the community is picked first by add_member, which fails (_fails). In the model the order of memberships is that of a list; on chain it is that of hashed keys. Proved: it succeeds with only memberships to give out (_partial), and the community can burn the rest.
* C128, Referenda are decided by present members: `C128_collective_fails`, `C128_community_fails`. False: the votes of expelled or removed members still decide (C128_collective_fails, C128_community_fails). Proved of accounts that do not leave or change rank, and of memberships that stay with their holder, whatever others do (_partial).
* C129, Assets sent away go through the chain that keeps them: `C129_asset_hub_assets_fails`. False of the code for assets of Asset Hub sent anywhere but Asset Hub (C129_asset_hub_assets_fails); proved for all others (_partial).
* C132, Sending assets never stops the chain: `C132_any_account_stops_the_chain_fails`. False: any account can make the runtime panic (C132_any_account_stops_the_chain_fails); proved for all other assets (_partial).
* C136, A community's name is text and is kept as the name of its track: `C136_name_lost_fails`. False when a track is given: the name is checked and dropped (C136_name_lost_fails).
* C141, Calls on assets and by proxies fit a block and are charged for what they touch: `C141_charged_for_items_fails`. False of transfer_all (C141_charged_for_items_fails: its weight is a copy of block); proved for all other calls.
* C150, The vesting lock holds back only transfers and reserves: `C150_fees_fails`. False of the code: pallet_balances ignores the reasons of locks, so that fees cannot be paid from unvested funds (C150_fees_fails). Proved: exactly when transfers, fees, reserves and holds go through.
* C151, Merging schedules does not put off the release: `C151_merge_fails`. False of the code: the rate of the merged schedule is rounded down (C151_merge_fails). Proved: it takes at most twice the time that was left.
* C152, Only a payment's own text names it: `C152_other_text_fails`. False of the code: ids made before block 2^24 have a second text (C152_other_text_fails). Proved: exactly which texts name an id, whatever its block: the base58 texts of its bytes with zeros at the end kept or left out (C152_texts_partial, C152_exactly_partial); from block 2^24, 2^16 and 2^8 on these are one, two and three texts, so from block 2^24 on only the own text names an id; the constructor gives malformed text an id that no payment after block 0 has.
* C159, There is always somebody to make blocks: `C159_none_fails`, `C159_undesired_fails`. False of the code: with MinEligibleCollators = 1 set_invulnerables may name only accounts without session keys, which leaves nobody (C159_none_fails), and with no candidates desired (as at genesis) the last invulnerable can be removed although nobody is then chosen (C159_undesired_fails). Proved: all other steps keep somebody eligible; somebody is chosen exactly if there is an invulnerable, or a candidate while one is desired.
* C163, Deposits of proxies are reserved exactly and come back: `C163_kill_fails`, `C163_stays_fails`. False of the pallet: killing a pure account with more than one delegate (or a second time) gives the spawner back more than was taken for it, out of other reserves, and leaves funds of the pure account reserved; one that removes its proxies leaves the deposit of its spawner reserved for good. Proved for histories in which pure accounts are killed once and with one delegate, and for each account whose own pure accounts are, whatever others do (C163_own_partial).
* C165, A delay leaves the account time from the moment it is granted: `C165_fails`. False of the pallet: announcements made before, as a proxy of another type, count. Proved if nothing was announced for the account before.
* C167, The call of a proposal is there when it is due: `C167_fails`. False: a referendum does not request the call, so whoever noted it can take it back before approval (getting the deposit), and the approved proposal is given up. Proved from the moment on when the call is scheduled and there; until it is due anybody can supply it without deposit.
* C169, Periods counted in blocks last their time: `C169_fails`. False by up to 18 seconds: up to two blocks fit a slot and times of blocks may be equal, so three blocks can pass within a millisecond (C169_fails). Proved: never 18 seconds or more, for any number of blocks, if the relay chain includes at most one block in each of its own; at least half of the time without that assumption.
* C173, Every message that arrives is taken: `C173_fails`, `C173_full_fails`. False: messages longer than 65531 bytes do not fit a page of the queue (HeapSize 64 KiB) and are dropped with the rest of their page, though channels carry 102400 bytes and MaxPageSize was raised for them (C173_fails); so is what arrives while 48 pages wait (C173_full_fails). Proved: everything else is taken; from the relay chain exactly what is not longer than that.
* C175, Sending a message to another chain costs the declared delivery fee: `C175_fails`. False: the declared prices (PriceForSiblingParachainDelivery, PriceForParentDelivery) are used only in benchmarks; XcmRouter and the queue are configured without a price, so delivery is free (C175_fails). Proved: the routes, and that the price is nothing for all.
* C176, Messages to a chain leave in order, once, and none is lost: `C176_fails`. False: pages waiting for a channel the relay chain reports closed, or with a smaller greatest message, are dropped (C176_fails; code of the pallet). Proved: order and once for all histories; nothing lost while the channel stays open with the same greatest message; nothing to the relay chain lost.
* C177, No channel to another chain starves: `C177_fails`. False: the queue hands a page over only if it is shorter than the room left, so a page of exactly the bytes a channel holds waits for ever with all behind it (C177_fails; code of the pallet; such channels are usual: 102400 bytes in all and per message). Proved: the turn within 128 blocks when the empty channel has room for a page and a byte more.
* C178, Chains that ask to stop get no messages; signals always go out: `C178_fails`. False when 128 channels are in use as a chain asks to stop: the request is ignored and messages to it are handed over later (C178_fails; code of the pallet, with the limit of the runtime). Proved otherwise, and for signals.
* C180, Every dispute about a payment can be settled: `C180_no_members_fails`. False on a chain whose collective has no member of rank 1 or more, as the local chain specification makes it: what is in escrow for a payment under review then stays held for ever (C180_no_members_fails). Proved when the members agree and the parties can pay (C180_can_settle_partial; see C94 and C112).
* C181, Every call of the communities pallet announces itself, once: `C181_unlock_fails`. False of unlock, which sets funds free and adds no event (C181_unlock_fails). Proved for every other call (C181_one_event_partial), except that the event of demote has the rank before (C47_demote_event_fails) and that of remove_member names the account it was given, whose membership it need not be (C46_named_member_fails).
* C182, The events tell which communities there are and who administers them: `C182_first_admin_fails`. False of the first admin: CommunityRegistered names the community only, so two registrations with different admins have the same events (C182_first_admin_fails). Proved: which communities exist (C182_communities), and every later change of the admins (C182_admins_partial, for an observer who also sees the registering transactions).
* C183, The events tell how the votes on a referendum stand: `C183_votes_fails`. False of accounts with two memberships of a community: VoteCasted and VoteRemoved do not name the membership (C183_votes_fails). Proved if each account votes with one membership (C183_votes_partial), and of one account that does whatever the others do (C183_own_vote_partial).
* C185, The events tell which payments there are and how they stand: `C185_events_fails`. False of the parties, which no event names; of requests, whose event has no amount; and of disputes: PaymentDisputeResolved does not tell the result, and PaymentResolved, which would, is never emitted (C185_events_fails). Proved: which ids are in use, how each payment stands, and asset and amount of every payment in escrow (C185_standing_partial), for every id that is not given to two senders (C109).
* C191, Over its whole life a payment moves exactly what its outcome says: `C191_whole_life_fails`. False as stated: accept_and_pay on a payment already in escrow pays it a second time and leaves the first escrow held (C191_whole_life_fails); the partial theorem has this as a fourth outcome, C191_whole_life_without_accept is the claim as stated for histories without it.
* C194, A collator loses their place for idleness only after having had a chance to make blocks: `C194_no_chance_fails`, `C194_unwanted_fails`. false for candidates who register in a block in which a session ends, and for candidates who are never chosen
* C195, A community does only what more of its votes are for than against: `C195_ghost_votes_fails`. false of communities that decide by rank, where a demoted member who takes back a vote leaves weight behind; proved for one vote per membership, and for all methods when no standing vote changes its weight
* C196, Members of a community who agree get their proposal approved: `C196_rank_zero_fails`. false of communities that decide by rank, where the votes of members of rank 0 weigh nothing; proved for one vote per membership, and the second half for all methods when no standing vote changes its weight
* C198, A coin counts at most once in a vote: `C198_counts_once_fails`. Accounts with two memberships cast the same coins with both (C198_counts_once_fails); proved where no account has two votes on record in a poll, and for each account that has not, whatever others do (C198_own_partial). What is frozen for votes is there in every history that does not take it (C198_frozen_is_there). C198_calls_polite: signed calls of the balances pallet leave what is frozen.
* C201, Units frozen for votes stay on their account: `C201_frozen_stays_fails`. Fails in full: a holder whose units are frozen for votes gives the account up (refund with burning): units and freeze are gone while the vote still counts. The rest is proved: calls of others, and every other call of the holder; the asset not being destroyed.
* C202, A delegate takes no more than it was given leave for: `C202_delegate_fails`. Fails in full: a rest below the minimum goes along with an approved transfer and is not taken off the leave (leave for 95 takes 100). What is asked for is within the leave, and what is taken when no rest goes along. In every history what is taken is within the leave given and one rest below the minimum each time the account is emptied (C202_with_rests).
* C203, The units of an asset and its supply: `C203_supply_fails`. Never more than the supply: proved. Equality fails: units of an account given up or destroyed stay in the supply on record. It holds on histories without these. For one asset it needs only its own accounts not to be given up, whatever happens to other assets (C203_own_supply_partial).
* C212, A credential serves only the one who made it: `C212_own_use_fails`. False: the challenge a device signs is the hash of a block and says nothing about signer or call, so whoever sees a credential can open their own session with it in the next three blocks.
* C215, A voter can afford to take back their stake: `C215_stuck_fails`. False of the code: the pallet freezes up to the whole balance and fees are charged out of what is not frozen (C215_stuck_fails). Proved: who keeps the fee beyond the stake and the existential deposit can vote and can unlock. Without gas; no other freezes or reserves.
* C216, Votes cast in an asset are of units their voters keep: `C216_units_fails`, `C216_unlocks_fails`. Fails when the voter gives the account with the frozen units up (refund with allow_burn): the vote stands without units (C216_units_fails) and locks cannot be removed (C216_unlocks_fails). Proved for histories without that, without destroying accounts that have frozen units, without forced minimums and with one vote per account and poll; and for each account to which none of that happens, whatever the other accounts do (C216_own_partial, C216_own_unlocks_partial).
* C221, A code the collective decides to set replaces the runtime: `C221_fails`. set_code made by the scheduler never makes a code wait: the validation data is gone by then. Authorizing and handing in works.

## Theorems and their axioms

P = `propext`, C = `Classical.choice`, Q = `Quot.sound`; names are without `Verif.` and the area's namespace.

| id | status | theorems |
|---|---|---|
| C01 | proved | C01_open_payments_backed (PCQ) |
| C02 | proved | C02_calls_conserve_money (PCQ), C02_burn_is_only_dust (PCQ), C02_failed_call_changes_nothing (P), C02_scheduler_conserves_money (PCQ) |
| C03 | proved | C03_pay_escrows_exactly (PQ) |
| C04 | proved | C04_release_exact (PCQ) |
| C05 | proved | C05_cancel_exact (PCQ), C05_cancel_leaves_no_dust (PCQ), C05_cancel_undoes_pay (PCQ), C05_cancel_rest (PCQ) |
| C06 | proved | C06_resolve_any_fees (PCQ), C06_resolve_exact (PCQ), C06_resolve_rests (PCQ) |
| C07 | proved | C07_hold_equals_release (PQ), C07_every_end (PCQ) |
| C08 | partial | C08_state_machine_partial (PCQ), C08_terms_never_change (PCQ), C08_undocumented_edge_fails (P) |
| C09 | proved | C09_only_entitled_party (PCQ) |
| C10 | proved | C10_at_most_one_payment (PCQ), C10_only_named_id (PCQ) |
| C11 | partial | C11_finished_record_final_partial (PCQ), C11_finished_calls_fail_partial (PCQ), C11_paid_twice_fails (P) |
| C12 | partial | C12_accept_partial (PCQ), C12_accepts_any_state_fails (P) |
| C13 | partial | C13_accept_exact_partial (PCQ), C13_wrong_beneficiary_fails (P), C13_accept_rest_partial (PCQ), C13_no_collision_partial (PCQ), C13_own_id_partial (PCQ) |
| C14 | proved | C14_request_moves_nothing (PQ), C14_only_sender_fulfils (PCQ) |
| C15 | proved | C15_refund_deadline (PCQ), C15_overflow_fails_cleanly (PCQ) |
| C16 | proved | C16_dispute_before_deadline (PCQ), C16_no_dispute_after_deadline (P), C16_can_dispute (PCQ) |
| C17 | proved | C17_review_only_ends_by_resolution (PCQ), C17_dispute_removes_task (P) |
| C18 | proved | C18_no_early_refund (PCQ) |
| C19 | proved | C19_cancellation_is_scheduled (PCQ), C19_refund_completes (PCQ), C19_undisputed_refund_happens (PCQ), C19_every_history (PCQ), C19_untouched_is_refunded (PCQ) |
| C20 | proved | C20_release_possible (PCQ) |
| C21 | proved | C21_parties_agree (PCQ) |
| C22 | partial | C22_found_by_id_partial (PCQ), C22_orphaned_fails (P), C22_own_id_partial (PCQ), C22_lost_only_by_reuse (PCQ) |
| C23 | partial | C23_no_stranded_holds_partial (PCQ), C23_stranded_holds_fails (P), C23_held_exactly (PCQ), C23_stranded_for_good (PCQ) |
| C24 | partial | C24_task_matches_refund_partial (PCQ), C24_stale_task_fails (P), C24_own_id_partial (PCQ), C24_tasks_act_for_beneficiary (PCQ), C24_tasks_were_asked_for (PCQ) |
| C25 | proved | C25_no_overwrite (P) |
| C26 | partial | C26_dispute_charges_flagged_partial (PCQ), C26_dispute_charges_by_first (PCQ), C26_mixed_flags_fails (P), C26_kreivo (PCQ) |
| C27 | proved | C27_aggregation_lossless (PCQ), C27_aggregation_same_effect (PCQ) |
| C28 | partial | C28_beneficiary_never_loses_partial (PCQ), C28_beneficiary_loses_fails (P), C28_kreivo (PCQ) |
| C29 | proved | C29_every_record (PCQ), C29_pay_fees (PCQ), C29_request_fees (PCQ), C29_communities_exempt (PCQ) |
| C30 | proved | C30_lifecycle_exact (PCQ), C30_cost_bounds (PCQ) |
| C31 | proved | C31_dispute_incentives (PCQ), C31_in_every_case (PCQ) |
| C32 | proved | C32_release_empties_escrow (PCQ), C32_resolve_empties_escrow (PCQ) |
| C33 | proved | C33_third_parties_never_lose (PCQ) |
| C34 | proved | C34_id_u64_id (PCQ), C34_u64_id_u64 (PCQ) |
| C35 | proved | C35_scale_roundtrip (PCQ), C35_scale_length (PQ), C35_decode_total (PCQ) |
| C36 | proved | C36_print_parse (PCQ), C36_print_injective (PCQ) |
| C37 | partial | C37_parse_panics_iff_partial (PCQ), C37_short_or_undashed_partial (PCQ), C37_long_text_panics_fails (PCQ) |
| C38 | proved | C38_ids_distinct (P), C38_ids_distinct_small (P), C38_block_size (PCQ), C38_kreivo_blocks (PCQ), C38_kreivo_ids (PCQ) |
| C39 | proved | C39_provenance_readable (PCQ), C39_ordered_by_block (PCQ) |
| C40 | proved | C40_duplicate_refused (PCQ), C40_duplicate_create_refused (PCQ), C40_never_unregistered (PCQ), C40_calls_keep_state (PCQ), C40_registered_once (PCQ) |
| C41 | proved | C41_one_admin (PCQ) |
| C42 | partial | C42_isolated_partial (PCQ), C42_exact (PCQ), C42_isolated_fails (PCQ) |
| C43 | proved | C43_exact_deposit (PCQ), C43_unpaid_refused (PCQ), C43_kreivo (PCQ) |
| C44 | proved | C44_only_own_members (PCQ), C44_strangers_refused (PCQ), C44_added (PCQ) |
| C45 | partial | C45_needs_some_authority_partial (PCQ), C45_no_other_call (PCQ), C45_own_admin_fails (PCQ) |
| C46 | partial | C46_released_partial (PCQ), C46_named_member_fails (PCQ) |
| C47 | partial | C47_promote (PCQ), C47_demote_partial (PCQ), C47_demote_event_fails (PCQ) |
| C48 | proved | C48_conditions (PCQ), C48_sufficient (PCQ) |
| C49 | proved | C49_one_vote (PCQ), C49_vote_replaces (PCQ), C49_revote_tally (PCQ) |
| C50 | partial | C50_plain_partial (PCQ), C50_tally_is_sum_partial (PCQ), C50_rank_change_fails (PCQ), C50_saturation_fails (PCQ) |
| C51 | partial | C51_undo_partial (PCQ), C51_saturation_fails (PCQ), C51_shared_lock_fails (PCQ) |
| C52 | partial | C52_frozen_covers (PCQ), C52_after_removal (PCQ), C52_own_freezer_partial (PCQ), C52_freezer_partial (PCQ), C52_freezer_fails (PCQ) |
| C53 | partial | C53_backed_partial (PCQ), C53_backed_fails (PCQ), C53_own_votes_partial (PCQ), C53_own_locks_partial (PCQ) |
| C54 | proved | C54_not_before (PCQ), C54_needs_lock (PCQ), C54_afterwards (PCQ) |
| C55 | proved | C55_within_balance (PCQ) |
| C56 | partial | C56_approval_exact_partial (PCQ), C56_approval_near_partial (PQ), C56_support_near_partial (PQ), C56_support_exact_partial (PQ), C56_maximum (P), C56_range (PQ), C56_no_ayes (PQ), C56_wrapped_sum_fails (PCQ), C56_empty_electorate_fails (PCQ) |
| C57 | partial | C57_monotone_partial (PCQ), C57_nearly_monotone_partial (PCQ), C57_aye_lowers_fails (P), C57_nay_raises_fails (P) |
| C58 | partial | C58_blocked_partial (P), C58_blocked_fails (PCQ), C58_unregistered_fails (PCQ) |
| C59 | partial | C59_authority_partial (PQ), C59_kreivo_accounts_partial (PCQ), C59_own_community_fails (PCQ), C59_subset_fails (PCQ) |
| C60 | proved | C60_reversible (PCQ), C60_injective (PCQ), C60_only_community_accounts (PCQ) |
| C61 | proved | C61_named (PCQ), C61_not_other_pallet (PCQ), C61_not_system_account (PCQ), C61_not_sovereign (PCQ) |
| C62 | proved | C62_signed_by_own_community (PCQ), C62_failure_returned (PCQ), C62_leaf_signer (PCQ), C62_nested (PCQ) |
| C63 | proved | C63_adds_exactly (PCQ), C63_never_decreases (PCQ) |
| C64 | partial | C64_mints_exactly (PCQ), C64_refused (PCQ), C64_kreivo_origin (PCQ), C64_goes_through (PCQ), C64_reports_partial (PCQ), C64_reports_fails (PCQ) |
| C65 | proved | C65_success (PCQ), C65_all_or_nothing (PCQ), C65_no_panic (PCQ), C65_complete (PCQ) |
| C66 | proved | C66_thresholds (PCQ), C66_majority (PCQ), C66_majority_large (PCQ), C66_default_track (PCQ) |
| C67 | proved | C67_id_location_id (PQ), C67_location_id_location (P), C67_numbers (PQ) |
| C68 | proved | C68_distinct_locations_distinct_ids (P), C68_distinct_ids_distinct_locations (PQ) |
| C69 | partial | C69_panics_iff_partial (PQ), C69_foreign_never_panics_partial (PQ), C69_large_local_index_fails (P) |
| C70 | partial | C70_accepted_iff (PQ), C70_only_own_reserve_partial (PQ), C70_own_reserve_accepted (PQ), C70_any_origin_mints_asset_hub_assets_fails (PQ) |
| C71 | partial | C71_distinct_senders_partial (PCQ), C71_large_indices_collide_fails (PCQ), C71_who_has_an_account (PCQ) |
| C72 | partial | C72_own_community_partial (PCQ), C72_index_saturates_fails (PCQ) |
| C73 | partial | C73_roundtrip_partial (PQ), C73_refused_iff (PQ), C73_same_community (PQ), C73_member_is_lost_fails (none) |
| C74 | partial | C74_signed_speaks_partial (PCQ), C74_senders (PCQ), C74_own_account (PCQ), C74_treasury_speaks_fails (PCQ), C74_executes_as_itself (P), C74_other_origins (PCQ), C74_number_kept (PQ) |
| C75 | proved | C75_superset (P), C75_reflexive (P), C75_transitive (P), C75_top (P), C75_antisymmetric (P), C75_complete (P) |
| C76 | partial | C76_fails (PCQ), C76_filter_partial (P), C76_nested_partial (PCQ) |
| C77 | proved | C77_area (PQ), C77_disjoint (P), C77_no_transfers (P), C77_nested (PCQ) |
| C78 | proved | C78_only_owner_or_root (P), C78_reflexive (P), C78_equal (P), C78_greater (P), C78_antisymmetric (P) |
| C79 | proved | C79_exported (P), C79_not_applied (none) |
| C80 | partial | C80_fresh_fails (PQ), C80_fresh_partial (PQ), C80_past_partial (PQ), C80_accepts_partial (PQ), C80_window_partial (PQ) |
| C81 | proved | C81_lookup (PCQ), C81_index_unambiguous (PCQ) |
| C82 | proved | C82_ids (PCQ), C82_track_for (P), C82_injective (P), C82_names (PCQ), C82_submit (PCQ), C82_cancel_kill (P) |
| C83 | proved | C83_submit (PCQ), C83_members_can (PCQ), C83_update (PCQ), C83_ensure_member (PQ) |
| C84 | proved | C84_monotone (PQ), C84_maximum (PQ), C84_free_only_negligible (PCQ), C84_base_extrinsic (PCQ), C84_proof_price (P), C84_no_saturation (PCQ), C84_length (PCQ) |
| C85 | proved | C85_contracts (PCQ), C85_transfer_passes (PCQ) |
| C86 | proved | C86_unsupported (PQ), C86_fits_no_limit (PQ), C86_supported (PCQ), C86_at_most_100 (PQ), C86_grows (PQ), C86_linear (P), C86_filter_grows (PQ), C86_filter_cap (P) |
| C87 | partial | C87_freeze_exact_partial (PCQ), C87_freeze_exact_fails (PCQ), C87_own_freeze_partial (PCQ) |
| C88 | proved | C88_grants (PCQ), C88_who (P), C88_declared (PCQ) |
| C89 | partial | C89_history_partial (PCQ), C89_proxies_partial (PCQ), C89_nesting_fails (PCQ), C89_nesting_partial (PCQ) |
| C90 | proved | C90_floors (PCQ), C90_start (PCQ), C90_weaker (PCQ) |
| C91 | partial | C91_deposit_fails (P), C91_deposit_cap_fails (P), C91_claim_fails (P), C91_covers_partial (PCQ), C91_benchmark_partial (PQ), C91_sum_partial (PCQ) |
| C92 | proved | C92_pays_or_relay (PQ), C92_parachains_pay (PQ), C92_weightless (PCQ) |
| C93 | proved | C93_never_root (PCQ), C93_parachain (PCQ), C93_inside_parachain (PCQ), C93_relay_account (PCQ), C93_local_account (PCQ), C93_cleared (PCQ) |
| C94 | partial | C94_resolvable_partial (PCQ), C94_needed (PCQ), C94_stuck_fails (PCQ) |
| C95 | proved | C95_one_event (PQ), C95_history (PQ) |
| C96 | proved | C96_only_root (PCQ), C96_resolution_exact (PCQ), C96_resolution_rests (PCQ) |
| C97 | partial | C97_one_day_partial (PCQ), C97_two_days_fails (PCQ) |
| C98 | proved | C98_upload (PCQ), C98_instantiate (PCQ), C98_instantiate_with_code (PCQ), C98_no_signer (PCQ) |
| C99 | proved | C99_who_pays (PCQ), C99_own_deposit (PCQ), C99_deposit_positive (none) |
| C100 | partial | C100_own_origins_partial (PCQ), C100_xcm_partial (PCQ), C100_relay_treasury_fails (PCQ) |
| C101 | partial | C101_normal_share (PCQ), C101_operational_room (PCQ), C101_room_partial (PCQ), C101_hooks_fails (PCQ) |
| C102 | proved | C102_exact (PQ), C102_linear (PQ), C102_additive (PQ), C102_monotone (PCQ) |
| C103 | proved | C103_exact (PQ), C103_once (PQ) |
| C104 | proved | C104_who (P), C104_messages (PCQ) |
| C105 | partial | C105_conservation (PCQ), C105_only_native_minted (PCQ), C105_who_creates (PCQ), C105_no_creation_partial (PCQ), C105_native_partial (PCQ), C105_local_assets (PCQ), C105_sibling_mints_fails (PCQ), C105_native_once_partial (PCQ), C105_trader_mints_fails (PCQ) |
| C106 | proved | C106_only_own_accounts (PCQ), C106_parachain (PCQ), C106_inside_parachain (PCQ), C106_relay_account (PCQ), C106_local_account (PCQ), C106_relay_owns_all (PCQ), C106_parachains_only_own (PCQ) |
| C107 | partial | C107_never_stops_partial (PCQ), C107_which_ids (PQ), C107_any_parachain_stops_the_chain_fails (PCQ) |
| C108 | proved | C108_only_own_traps (PCQ), C108_claimable (PCQ), C108_leftovers (PCQ) |
| C109 | partial | C109_found_by_id_partial (PCQ), C109_one_payment_per_id_partial (PCQ), C109_scheduler_partial (PCQ), C109_accept_pays_requester_partial (PCQ), C109_enacted_together_fails (PCQ) |
| C110 | proved | C110_vote (PCQ), C110_members_can (PCQ), C110_tally (PCQ), C110_ranks_by_root (PCQ) |
| C111 | proved | C111_root (PCQ), C111_custom (PCQ), C111_what_was_approved (PCQ), C111_ranks (PCQ), C111_approved (PCQ), C111_majority (PCQ) |
| C112 | partial | C112_no_members_fails (PCQ), C112_unanimous_partial (PCQ), C112_can_act_partial (PCQ) |
| C113 | partial | C113_collective_partial (PCQ), C113_community_partial (PCQ), C113_collective_exactly (PCQ), C113_community_exactly (PCQ), C113_kept (PCQ), C113_lost_fails (PCQ) |
| C114 | proved | C114_own_referendum (PCQ), C114_approved (PCQ), C114_member_voted (PCQ) |
| C115 | partial | C115_one_vote_fails (PCQ), C115_quorum_partial (PCQ) |
| C116 | partial | C116_charged_partial (PCQ), C116_charged_fails (PCQ) |
| C117 | proved | C117_communities (PCQ), C117_wrapping (PCQ), C117_manager (PCQ), C117_limit_needed (PCQ), C117_payments (PCQ), C117_not_free (PCQ) |
| C118 | partial | C118_once_partial (PQ), C118_other_once_partial (PQ), C118_in_order_partial (P), C118_mortal_partial (PQ), C118_authenticate_fails (PQ), C118_removed_fails (PQ) |
| C119 | proved | C119_monotone (PCQ), C119_taken (PCQ), C119_settled (PQ), C119_payer_gone (PQ), C119_asset_taken (PQ), C119_asset_settled (PQ), C119_asset_no_more (PQ), C119_feeless (PQ), C119_rate (PCQ), C119_pipeline (P), C119_never_more (PCQ), C119_pass_pays (PCQ), C119_signer_pays (PCQ) |
| C120 | partial | C120_membership_partial (PCQ), C120_currency_partial (PCQ), C120_asset_partial (PCQ), C120_rank_unanimous_fails (PCQ), C120_rank_single_fails (PCQ), C120_native_fails (PCQ) |
| C121 | partial | C121_which (PQ), C121_price (PCQ), C121_surplus (PCQ), C121_transact (PCQ), C121_kept (PCQ), C121_assets_partial (PCQ), C121_once_partial (PCQ), C121_covers_partial (PCQ), C121_unpaid_fails (PCQ), C121_two_parts_fails (PCQ) |
| C122 | partial | C122_who_creates_partial (PCQ), C122_existing (PCQ), C122_only_root_fails (PCQ) |
| C123 | partial | C123_owner_fails (PCQ), C123_only_issuer (PCQ), C123_nobody_votes_fails (PCQ), C123_zero_mints_fails (PCQ) |
| C124 | partial | C124_how_members_join_partial (PCQ), C124_how_members_leave (PCQ), C124_one_holder (PCQ), C124_priced_by_holder (PCQ), C124_locked_partial (PCQ), C124_approved_by_holder (PCQ), C124_offered_by_holder (PCQ), C124_new_holder_starts_afresh (PCQ), C124_can_freeze (PCQ), C124_stays_frozen (PCQ), C124_minting_opened_by_admin (PCQ), C124_can_lock (PCQ), C124_keeper (PCQ), C124_community_decides_fails (PCQ) |
| C125 | partial | C125_added_uses_one_partial (PCQ), C125_supply (PCQ), C125_buying_pays (PCQ), C125_swapping_pays (PCQ), C125_minting_pays (PCQ), C125_paid_for_fails (PCQ) |
| C126 | partial | C126_can_add_partial (PCQ), C126_burns_junk (PCQ), C126_memberships_left_fails (PCQ) |
| C127 | proved | C127_collective_one (PCQ), C127_community_limit (PCQ), C127_collective_begins (PCQ), C127_community_begins (PCQ), C127_default (PCQ) |
| C128 | partial | C128_collective_partial (PCQ), C128_community_partial (PCQ), C128_collective_fails (PCQ), C128_community_fails (PCQ) |
| C129 | partial | C129_through_own_reserve_partial (PCQ), C129_asset_hub_assets_fails (PCQ) |
| C130 | proved | C130_exact (PCQ), C130_payer (PCQ), C130_filtered (PCQ), C130_limits (PCQ) |
| C131 | proved | C131_short (P), C131_exactly (PQ), C131_same_meaning (PCQ), C131_distinct (PCQ), C131_has_a_name (PCQ) |
| C132 | partial | C132_never_stops_partial (PCQ), C132_any_account_stops_the_chain_fails (PCQ) |
| C133 | proved | C133_claim_exact (PCQ), C133_claimable (PCQ) |
| C134 | proved | C134_units_leave (PCQ), C134_transfer (PCQ), C134_transfer_succeeds (PCQ), C134_books (PCQ), C134_within_issuance (PCQ) |
| C135 | proved | C135_promote (PCQ), C135_demote (PCQ), C135_expel (PCQ), C135_exchange (PCQ), C135_only_root (PCQ), C135_moves (PCQ) |
| C136 | partial | C136_text (PCQ), C136_any_text (PCQ), C136_kept_partial (PCQ), C136_name_lost_fails (PCQ) |
| C137 | proved | C137_not_at_once (PCQ), C137_time_to_vote (PCQ), C137_ends (PCQ), C137_times_out (PCQ), C137_community_time_to_vote (PCQ), C137_community_ends (PCQ), C137_community_times_out (PCQ), C137_deposit (PCQ), C137_community_deposit (PCQ) |
| C138 | proved | C138_admitted (PCQ), C138_arrives (PCQ), C138_unpaid (PCQ), C138_undeliverable (PCQ), C138_price_kusama (P), C138_undeliverable_topic (PCQ), C138_back_kusama (P) |
| C139 | proved | C139_withdraw_when (PCQ), C139_withdraw (PCQ), C139_transfer (PCQ), C139_transfer_self (PCQ), C139_deposit (PCQ), C139_deposit_when (PCQ), C139_deposit_all_of (PCQ), C139_deposit_everything (PCQ) |
| C140 | proved | C140_who_asks (PCQ), C140_kept (PCQ), C140_submit (PCQ), C140_decision_deposits (PCQ), C140_place (PCQ), C140_decision_back (PCQ), C140_decision_stays (PCQ), C140_submission_back (PCQ), C140_rejected_stays (PCQ), C140_lost_only_by_kill (PCQ) |
| C141 | partial | C141_assets_fit (PCQ), C141_proxy_fit (PCQ), C141_carrying (PCQ), C141_not_free (PQ), C141_charged_for_items_partial (PQ), C141_charged_for_items_fails (P) |
| C142 | proved | C142_floor (PCQ), C142_direction (PCQ), C142_step (PCQ), C142_history (PCQ), C142_day (PCQ), C142_quiet (PCQ), C142_fee (PCQ) |
| C143 | proved | C143_on_time (PCQ), C143_refunds_fit (PCQ), C143_delay (PCQ), C143_kept (PCQ), C143_once (PCQ), C143_share (PCQ), C143_crowding (PCQ), C143_room (PCQ), C143_late (P) |
| C144 | proved | C144_who (PCQ), C144_cancelled (PCQ), C144_killed (PCQ), C144_community (PCQ), C144_future (PCQ) |
| C145 | proved | C145_refund_comes (PCQ), C145_on_time (PCQ), C145_only_when_due (PCQ), C145_one_task (PCQ), C145_kreivo (PCQ) |
| C146 | proved | C146_never_acts (PCQ), C146_system_accounts (PCQ), C146_community_acts (PCQ) |
| C147 | proved | C147_keeps_all (PCQ), C147_no_spends (none), C147_nothing_new (PCQ), C147_paid_once (PCQ), C147_approved (PCQ), C147_rejects (PQ), C147_pays (PCQ), C147_forgets (PQ), C147_takes_back (PQ), C147_six_days (PCQ) |
| C148 | proved | C148_own (PCQ), C148_any_call (PCQ), C148_nested_all (PCQ) |
| C149 | proved | C149_kept (PCQ), C149_leaves (PCQ), C149_merge_covers (PCQ), C149_vest_exact (PCQ), C149_ends (PCQ), C149_bounds (PCQ), C149_same_funds (PQ) |
| C150 | partial | C150_fees_fails (P), C150_lock_partial (P) |
| C151 | partial | C151_merge_fails (none), C151_merge_partial (PQ) |
| C152 | partial | C152_other_text_fails (PCQ), C152_own_text_partial (PCQ), C152_texts_partial (PCQ), C152_exactly_partial (PCQ), C152_few_partial (PCQ), C152_new_partial (PCQ), C152_js_partial (PCQ) |
| C153 | proved | C153_communities (PCQ), C153_payments (PCQ), C153_shared (PCQ) |
| C154 | proved | C154_maps (PCQ), C154_apart (PCQ), C154_names (PCQ), C154_walk (PCQ), C154_task (PCQ) |
| C155 | proved | C155_signatories (PCQ), C155_round (PCQ), C155_price (PCQ), C155_threshold (PCQ), C155_deposits (PCQ), C155_closed (PCQ), C155_executes (PQ) |
| C156 | proved | C156_parts (PQ), C156_now (PCQ), C156_asset (PQ), C156_later (PCQ), C156_free (P) |
| C157 | proved | C157_bonds (PCQ), C157_own_call (PCQ) |
| C158 | proved | C158_changes (PCQ), C158_registers (PQ), C158_leaves (PCQ), C158_takes (PCQ), C158_sorted (PCQ), C158_count (P), C158_highest (PCQ), C158_kept (PCQ), C158_enters (PCQ) |
| C159 | partial | C159_none_fails (P), C159_undesired_fails (P), C159_eligible_partial (PCQ), C159_chosen_partial (PCQ) |
| C160 | proved | C160_signed_for (PCQ), C160_included (PCQ), C160_other_chain (PQ), C160_other_version (PQ), C160_fork (PCQ), C160_window (PCQ) |
| C161 | proved | C161_live (PCQ), C161_local (PCQ), C161_file (PCQ), C161_unknown (PCQ) |
| C162 | proved | C162_builds (PQ), C162_start (PQ), C162_local (PQ) |
| C163 | partial | C163_exact_partial (PCQ), C163_back_partial (PCQ), C163_own_partial (PCQ), C163_kill_fails (PQ), C163_stays_fails (PQ) |
| C164 | proved | C164_named (PCQ), C164_list (PCQ), C164_announces (PQ), C164_at_once (P), C164_announced (PCQ), C164_once (PCQ), C164_stop (PQ) |
| C165 | partial | C165_fails (PQ), C165_partial (PCQ) |
| C166 | proved | C166_exact (PCQ), C166_only (PCQ), C166_back (PCQ), C166_free (PQ) |
| C167 | partial | C167_partial (PCQ), C167_supply (PCQ), C167_fails (PQ), C167_only (PQ) |
| C168 | proved | C168_forward (PCQ), C168_relay (PCQ), C168_two (PCQ), C168_accepted (PCQ) |
| C169 | partial | C169_steady_partial (PCQ), C169_half_partial (PCQ), C169_fails (PCQ) |
| C170 | proved | C170_author (PQ), C170_some (PQ) |
| C171 | proved | C171_term (PCQ), C171_first (PCQ), C171_nobody (P), C171_turns (PQ) |
| C172 | proved | C172_turns (PCQ), C172_order (PCQ), C172_all (PCQ), C172_heavy (PCQ), C172_forget (PCQ), C172_paid (PCQ) |
| C173 | partial | C173_prefix (PQ), C173_taken_partial (PQ), C173_long (PQ), C173_fails (none), C173_full_fails (PQ), C173_relay (PCQ) |
| C174 | proved | C174_turn (PCQ), C174_ring (PCQ) |
| C175 | partial | C175_route (P), C175_distinct (P), C175_free_partial (none), C175_fails (PQ) |
| C176 | partial | C176_order (PCQ), C176_up (PCQ), C176_up_accepted (PQ), C176_channels (PCQ), C176_accepted (PCQ), C176_kept_partial (PCQ), C176_fails (PQ) |
| C177 | partial | C177_turn_partial (PCQ), C177_fails (PQ) |
| C178 | partial | C178_stop_partial (PCQ), C178_fails (PQ), C178_signal (PCQ) |
| C179 | proved | C179_review_ends (PCQ), C179_root_calls (PCQ), C179_majority (PCQ) |
| C180 | partial | C180_no_members_fails (PCQ), C180_can_settle_partial (PCQ) |
| C181 | partial | C181_one_event_partial (PCQ), C181_silent (PCQ), C181_unlock_fails (PCQ) |
| C182 | partial | C182_admins_partial (PCQ), C182_events_stay (PCQ), C182_communities (PCQ), C182_first_admin_fails (PCQ) |
| C183 | partial | C183_votes_partial (PCQ), C183_votes_fails (PCQ), C183_own_vote_partial (PCQ) |
| C184 | proved | C184_falls (PCQ), C184_voices (PCQ) |
| C185 | partial | C185_standing_partial (PCQ), C185_events_fails (PCQ) |
| C186 | proved | C186_only_by_decision (PCQ), C186_as_community (PCQ), C186_majority (PCQ), C186_never_without_members (PCQ) |
| C187 | proved | C187_by_decision (PCQ), C187_anybody (PQ), C187_one_at_a_time (PQ), C187_relay_agrees (none), C187_newer (none) |
| C188 | proved | C188_code_by_decision (PCQ), C188_first_contract (PCQ), C188_kept_codes (PCQ), C188_called (PCQ), C188_changed (PCQ) |
| C189 | proved | C189_own_hand (PQ), C189_by_decision (PCQ), C189_transfer (PQ) |
| C190 | proved | C190_calls (PCQ), C190_no_new (PQ), C190_by_decision (PCQ) |
| C191 | partial | C191_meanwhile (PCQ), C191_whole_life_partial (PCQ), C191_whole_life_without_accept (PCQ), C191_whole_life_fails (P) |
| C192 | proved | C192_no_membership_moves (PCQ), C192_no_member_without_the_community (PCQ), C192_no_member_loses_it (PCQ), C192_stays_closed (PCQ) |
| C193 | proved | C193_author (PCQ), C193_turn (PCQ), C193_in_line (PCQ) |
| C194 | partial | C194_calls_partial (PCQ), C194_active_partial (PCQ), C194_grace_partial (PCQ), C194_chance_partial (PCQ), C194_no_chance_fails (PQ), C194_unwanted_fails (PQ) |
| C195 | partial | C195_on_record_partial (PCQ), C195_weight_partial (PCQ), C195_majority_partial (PCQ), C195_ghost_votes_fails (PCQ) |
| C196 | partial | C196_unopposed_partial (PCQ), C196_rejected_partial (PCQ), C196_rejected_weight_partial (PCQ), C196_rank_zero_fails (PCQ) |
| C197 | proved | C197_rejected (PCQ), C197_approved (PCQ) |
| C198 | partial | C198_counts_once_partial (PCQ), C198_calls_polite (PCQ), C198_counts_once_fails (PCQ), C198_frozen_is_there (PCQ), C198_own_partial (PCQ) |
| C199 | proved | C199_kept (PCQ), C199_kept_all (PCQ), C199_none_arrive (PCQ), C199_stays (PCQ) |
| C200 | proved | C200_taken (PCQ), C200_frozen (PCQ), C200_arrives (PCQ), C200_can_send (PQ) |
| C201 | partial | C201_frozen_stays_partial (PCQ), C201_frozen_stays_others (PCQ), C201_frozen_stays_fails (P) |
| C202 | partial | C202_asked (PCQ), C202_delegate_partial (PCQ), C202_delegate_fails (P), C202_leave_more (PCQ), C202_takes_back (PQ), C202_forced_back (PQ), C202_leave_less (PCQ), C202_with_rests (PCQ) |
| C203 | partial | C203_within_supply (PCQ), C203_supply_partial (PCQ), C203_supply_fails (PCQ), C203_own_supply_partial (PCQ) |
| C204 | proved | C204_deposits (PCQ), C204_nothing_left (PCQ), C204_price (PQ), C204_approval_price (PQ) |
| C205 | proved | C205_gone (PCQ), C205_counted (PCQ), C205_finishes (P), C205_ends (PCQ) |
| C206 | proved | C206_minted (PCQ), C206_burned (PCQ), C206_hands (PCQ), C206_amended (PCQ), C206_comes_and_goes (PCQ) |
| C207 | proved | C207_governance (PCQ), C207_scheduled (PCQ), C207_same_origin (P), C207_payments (PCQ), C207_all_or_nothing (P), C207_up_to_error (P), C207_forced (P), C207_refused (P), C207_nested (P), C207_one_by_one (P), C207_in_order (P), C207_keeps (P), C207_assets (PCQ) |
| C208 | proved | C208_given (PCQ), C208_given_others (PCQ), C208_blocked (PCQ), C208_fits (PCQ), C208_minimum (PCQ), C208_all (PQ), C208_own_minimum (PCQ) |
| C209 | proved | C209_reserved (PCQ), C209_closed (PCQ) |
| C210 | proved | C210_vouched (PCQ), C210_devices (PCQ), C210_once (PCQ) |
| C211 | proved | C211_session (PCQ), C211_signed (PCQ), C211_others (PCQ), C211_lasts (PCQ), C211_login (PCQ) |
| C212 | partial | C212_own_use_fails (PCQ), C212_window_partial (PQ), C212_refused_partial (PCQ) |
| C213 | proved | C213_pot (PCQ), C213_half (PCQ), C213_paid (PCQ), C213_only_authors (PCQ), C213_at_most_half (PCQ), C213_balanced (PCQ) |
| C214 | proved | C214_modest (PCQ), C214_programs (PCQ), C214_goods (P), C214_who (PCQ), C214_communities_speak (PCQ), C214_own_name (PCQ), C214_one_community (PQ) |
| C215 | partial | C215_unlock_partial (PCQ), C215_keep_partial (PCQ), C215_stuck_fails (PCQ) |
| C216 | partial | C216_own_partial (PCQ), C216_own_unlocks_partial (PCQ), C216_units_partial (PCQ), C216_unlocks_partial (PCQ), C216_units_fails (PCQ), C216_unlocks_fails (PCQ) |
| C217 | proved | C217_tried (PCQ), C217_hundred (PCQ), C217_ends (PCQ) |
| C218 | proved | C218_sizes (PCQ), C218_admins (PCQ) |
| C219 | proved | C219_at_most (PCQ), C219_goes_in (PCQ), C219_operational_room (PCQ) |
| C220 | proved | C220_goes_in (PCQ), C220_next_block (PCQ), C220_after_hooks (PCQ), C220_sized (PCQ), C220_later (PCQ) |
| C221 | partial | C221_never (PQ), C221_fails (none), C221_authorized_partial (PQ) |
