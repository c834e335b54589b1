import Verif.Payments.Model
import Verif.Payments.Spec
import Verif.Payments.Lemmas
import Verif.Payments.FeeLemmas
import Verif.Payments.Calls
import Verif.Payments.Invariants
import Verif.Payments.Steps
import Verif.Payments.Histories
import Verif.Payments.Demo
import Verif.Payments.Live
import Verif.Payments.Funds
import Verif.Payments.Lifecycle
import Verif.Payments.Stranded
import Verif.Payments.RefundTheorems
import Verif.Base.Bytes
import Verif.Ids.PaymentId
import Verif.Ids.PaymentIdLemmas
import Verif.Ids.PaymentIdTheorems
import Verif.Payments.Kreivo
import Verif.Payments.KreivoTheorems
import Verif.Payments.Disputes
import Verif.Payments.KreivoMore
import Verif.Xcm.Location
import Verif.Xcm.AssetId
import Verif.Xcm.AssetIdTheorems
import Verif.Xcm.Reserves
import Verif.Xcm.ReservesTheorems
import Verif.Accounts.Model
import Verif.Accounts.Lemmas
import Verif.Accounts.Theorems
import Verif.Accounts.OriginTheorems
import Verif.Base.AMap
import Verif.Base.PerThing
import Verif.Communities.Model
import Verif.Communities.Lemmas
import Verif.Communities.Steps
import Verif.Communities.Demo
import Verif.Communities.RegistryLemmas
import Verif.Communities.RegistryTheorems
import Verif.Communities.VoteLemmas
import Verif.Communities.Spec
import Verif.Communities.TallyLemmas
import Verif.Communities.TallyTheorems
import Verif.Communities.LockLemmas
import Verif.Communities.LockTheorems
import Verif.Governance.Curve
import Verif.Governance.Manager
import Verif.Governance.ManagerLemmas
import Verif.Governance.ManagerTheorems
import Verif.Runtime.Calls
import Verif.Runtime.CallLemmas
import Verif.Runtime.CallTheorems
import Verif.Governance.Tracks
import Verif.Governance.TracksTheorems
import Verif.Runtime.Fees
import Verif.Runtime.FeeTheorems
import Verif.Runtime.Block
import Verif.Runtime.BlockTheorems
import Verif.Xcm.Weights
import Verif.Xcm.WeightTheorems
import Verif.Xcm.Barrier
import Verif.Xcm.BarrierTheorems
import Verif.Xcm.Collators
import Verif.Xcm.BalanceQuery
import Verif.Xcm.Executor
import Verif.Xcm.ExecutorLemmas
import Verif.Xcm.ExecutorSteps
import Verif.Xcm.ExecutorTheorems
import Verif.Xcm.ExecutorSafety
import Verif.Payments.KreivoIds
import Verif.Governance.Referenda
import Verif.Governance.ReferendaLemmas
import Verif.Governance.ReferendaInv
import Verif.Governance.RefSteps
import Verif.Governance.CollectiveTheorems
import Verif.Governance.AuthorityTheorems
import Verif.Governance.EnactTheorems
import Verif.Governance.VoiceTheorems
import Verif.Runtime.CallWeights
import Verif.Runtime.CallWeightTheorems
import Verif.Communities.ScanTheorems
import Verif.Runtime.Charge
import Verif.Runtime.Transactions
import Verif.Runtime.TransactionTheorems
import Verif.Runtime.ChargeTheorems
import Verif.Communities.SupportTheorems
import Verif.Xcm.Traders
import Verif.Xcm.TraderLemmas
import Verif.Xcm.TraderTheorems
import Verif.Communities.Assets
import Verif.Communities.AssetTheorems
import Verif.Governance.Members
import Verif.Governance.MembersLemmas
import Verif.Governance.MembersTheorems
import Verif.Governance.SlotTheorems
import Verif.Governance.PresentTheorems
import Verif.Xcm.Transfers
import Verif.Xcm.TransferSpec
import Verif.Xcm.TransferLemmas
import Verif.Xcm.ReanchorLemmas
import Verif.Xcm.TransferSteps
import Verif.Xcm.TransferTheorems
import Verif.Communities.AssetMoves
import Verif.Governance.SeatTheorems
import Verif.Governance.NameTheorems
import Verif.Governance.EndTheorems
import Verif.Xcm.ArrivalTheorems
import Verif.Xcm.ExactTheorems
import Verif.Governance.Deposits
import Verif.Governance.DepositTheorems
import Verif.Runtime.AssetWeights
import Verif.Runtime.AssetWeightTheorems
import Verif.Runtime.Multiplier
import Verif.Runtime.MultiplierLemmas
import Verif.Runtime.MultiplierTheorems
import Verif.Runtime.Scheduler
import Verif.Runtime.SchedulerLemmas
import Verif.Runtime.SchedulerTheorems
import Verif.Governance.StopTheorems
import Verif.Runtime.RefundChain
import Verif.Runtime.RefundChainTheorems
import Verif.Runtime.RefundSafety
import Verif.Payments.BlockIds
import Verif.Runtime.Acting
import Verif.Runtime.Treasury
import Verif.Runtime.OwnTheorems
import Verif.Xcm.ReturnTheorems
import Verif.Conformance.Payments
import Verif.Conformance.Communities
import Verif.Conformance.Ids
import Verif.Conformance.Fees
import Verif.Runtime.Vesting
import Verif.Runtime.VestingTheorems
import Verif.Base.Codec
import Verif.Ids.TextTheorems
import Verif.Runtime.Storage
import Verif.Runtime.StorageLemmas
import Verif.Runtime.StorageTheorems
import Verif.Runtime.Multisig
import Verif.Runtime.MultisigTheorems
import Verif.Runtime.Estimate
import Verif.Runtime.Collators
import Verif.Runtime.CollatorLemmas
import Verif.Runtime.CollatorTheorems
import Verif.Runtime.ValidityTheorems
import Verif.Runtime.ChainSpec
import Verif.Runtime.ChainSpecTheorems
import Verif.Runtime.Delegates
import Verif.Runtime.DelegateTheorems
import Verif.Runtime.DelegateActs
import Verif.Runtime.Preimages
import Verif.Runtime.PreimageTheorems
import Verif.Runtime.Clock
import Verif.Runtime.ClockTheorems
import Verif.Runtime.Sessions
import Verif.Runtime.SessionTheorems
import Verif.Xcm.Queue
import Verif.Xcm.QueueLemmas
import Verif.Xcm.QueueTheorems
import Verif.Xcm.QueueTurns
import Verif.Xcm.Outbound
import Verif.Xcm.OutboundTheorems
import Verif.Xcm.OutboundTurns
import Verif.Governance.Disputes
import Verif.Governance.DisputeTheorems
import Verif.Communities.EventTheorems
import Verif.Governance.NoticeTheorems
import Verif.Payments.CommunityFunds
import Verif.Governance.FundsTheorems
import Verif.Payments.EventTheorems
import Verif.Governance.PowerTheorems
import Verif.Governance.UpgradeTheorems
import Verif.Governance.ContractTheorems
import Verif.Governance.BalanceTheorems
import Verif.Payments.LifeTheorems
import Verif.Governance.ClosedTheorems
import Verif.Runtime.Serving
import Verif.Runtime.ServingLemmas
import Verif.Runtime.ServingTheorems
import Verif.Runtime.ServingTheorems
import Verif.Governance.MajorityTheorems
import Verif.Governance.AgreeTheorems
import Verif.Governance.DissentTheorems
import Verif.Governance.OnceTheorems
import Verif.Xcm.TeleportTheorems
import Verif.Runtime.AssetPalletTheorems
import Verif.Runtime.AssetBooksTheorems
import Verif.Runtime.AssetRolesTheorems
import Verif.Runtime.AssetPowersTheorems
import Verif.Runtime.BatchTheorems
import Verif.Governance.TogetherTheorems
import Verif.Runtime.AssetGivenTheorems
import Verif.Runtime.Passes
import Verif.Runtime.PassTheorems
import Verif.Runtime.Rewards
import Verif.Xcm.Speech
import Verif.Xcm.SpeechTheorems
import Verif.Accounts.Names
import Verif.Runtime.VotingFees
import Verif.Runtime.TreasuryDues
import Verif.Governance.UnitVotes
import Verif.Xcm.MessageEnds
import Verif.Xcm.NameLengths
import Verif.Runtime.AssetLeaves
import Verif.Governance.DepositCalls
import Verif.Runtime.CollatorCalls
import Verif.Payments.Rests
import Verif.Runtime.StoredSizes
import Verif.Payments.Tasks
import Verif.Payments.KreivoRests
import Verif.Runtime.ProxyGrants
import Verif.Communities.OwnLocks
import Verif.Payments.OwnId
import Verif.Communities.OwnVote
import Verif.Governance.OwnOnce
import Verif.Governance.OwnUnits
import Verif.Runtime.AssetRests
import Verif.Communities.PlainPolls
import Verif.Xcm.WildTheorems
import Verif.Runtime.AssetOwnBooks
import Verif.Runtime.BlockLength
import Verif.Runtime.BlockLengthTheorems
import Verif.Runtime.NextBlock
import Verif.Runtime.PoolEntry
import Verif.Runtime.MultisigRounds
import Verif.Xcm.AssetNumbers
import Verif.Governance.DirectUpgrades
