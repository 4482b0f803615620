import Verif.Model.Step
import Verif.Proofs.Registry
import Verif.Proofs.WithdrawLemmas
import Verif.Proofs.Issue
import Verif.Proofs.Accounting
import Verif.Proofs.Invariants
import Verif.Demo
import Verif.TestReplay.Cases
import Verif.Proofs.NoErr
import Verif.Props.Pool
import Verif.Proofs.Frame
import Verif.Proofs.Sums
import Verif.Props.Accounting
import Verif.Props.Withdraw
import Verif.Props.Live
import Verif.Proofs.BatchMore
import Verif.Proofs.Records
import Verif.Props.Batch
import Verif.Proofs.Lists
import Verif.Proofs.CallbackLemmas
import Verif.Props.Callbacks
import Verif.Proofs.AccessLemmas
import Verif.Props.Access
import Verif.Props.Scoring
import Verif.Model.Providers
import Verif.Proofs.ProviderLemmas
import Verif.Props.Providers
import Verif.Spec.Scoring
import Verif.Proofs.ShareLemmas
import Verif.Props.Shares
import Verif.Props.Payout
import Verif.Props.Config
import Verif.Spec.System
import Verif.Props.System
import Verif.Props.Queue
import Verif.Spec.Losing
import Verif.Proofs.LossLemmas
import Verif.Props.Losses
import Verif.Props.Issue
import Verif.Model.Mock
import Verif.Spec.Network
import Verif.Proofs.Egld
import Verif.Proofs.Network
import Verif.Proofs.Refusal
import Verif.Props.Network
import Verif.Spec.Economy
import Verif.Proofs.Economy
import Verif.Proofs.Coalition
import Verif.Props.Economy
import Verif.Spec.Parts
import Verif.Spec.Effects
import Verif.Proofs.Parts
import Verif.Proofs.Effects
import Verif.Props.Parts
import Verif.Props.Positions
import Verif.Spec.Accept
import Verif.Proofs.AcceptBatch
import Verif.Props.Accept
import Verif.Spec.Exit
import Verif.Proofs.Exit
import Verif.Props.Exit
import Verif.Spec.Order
import Verif.Proofs.Order
import Verif.Props.Order
import Verif.Spec.Rewards
import Verif.Proofs.Rewards
import Verif.Props.Rewards
import Verif.Spec.Roles
import Verif.Props.Roles
import Verif.Spec.Burns
import Verif.Props.Burns
import Verif.Spec.Ledger
import Verif.Props.Ledger
import Verif.Spec.Flash
import Verif.Props.Flash
import Verif.Props.Starve
import Verif.Props.Gifts
import Verif.Props.Solvent
import Verif.Props.Deposit
import Verif.Spec.Rush
import Verif.Props.Rush
import Verif.Props.Limit
import Verif.Model.Layout
import Verif.Props.Layout
import Verif.Props.Front
import Verif.Props.Reentry
import Verif.Props.Repair
import Verif.Props.Settle
import Verif.Props.Turns
import Verif.Props.Declare
import Verif.Model.SelfCall
import Verif.Props.SelfCall
import Verif.Props.Ahead
import Verif.Proofs.Dust
import Verif.Props.Minimum
import Verif.Model.Abi
import Verif.Props.Interface
import Verif.Model.Mapper
import Verif.Proofs.MapperLemmas
import Verif.Props.Mapper
import Verif.Model.Wire
import Verif.Props.Wire
import Verif.Model.Views
import Verif.Props.Views
import Verif.Model.Proxy
import Verif.Props.Client
import Verif.Model.Logs
import Verif.Props.Logs
import Verif.Props.Sizes
import Verif.Props.Truncation
import Verif.Model.Messages
import Verif.Model.Gas
import Verif.Props.Reasons
import Verif.Props.Gains
import Verif.Props.Volume
import Verif.Props.Trust
import Verif.Props.Attack
import Verif.Props.Fees
import Verif.Props.Books
import Verif.Props.Jam
import Verif.Props.Vault
import Verif.Props.Snipe
import Verif.Props.Limbo
import Verif.Spec.Inflate
import Verif.Props.Inflate
import Verif.Props.Crumbs
import Verif.Props.Weights
import Verif.Props.Quiet
import Verif.Props.Gas
import Verif.Props.Line
import Verif.Props.Stall
import Verif.Props.Wait
import Verif.Props.Closed
import Verif.Props.Settings
import Verif.Spec.Rename
import Verif.Proofs.Rename
import Verif.Proofs.RenameStep
import Verif.Proofs.RenameAll
import Verif.Props.Rename
import Verif.Spec.Deeds
import Verif.Proofs.Deeds
import Verif.Props.Deeds
import Verif.Spec.Late
import Verif.Proofs.Late
import Verif.Proofs.LateStep
import Verif.Props.Late
import Verif.Props.Entrust
import Verif.Model.Accum
import Verif.Props.Accum
import Verif.Spec.Names
import Verif.Proofs.Names
import Verif.Proofs.NamesStep
import Verif.Props.Names
