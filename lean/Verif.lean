import Verif.Proofs.World
import Verif.Proofs.Solvency
import Verif.Proofs.SpecPrice
import Verif.Proofs.Limits
import Verif.Proofs.Liquidity
import Verif.Proofs.Outcome
import Verif.Proofs.Demo
import Verif.Props.Price
import Verif.Props.Place
import Verif.Props.Cancel
import Verif.Props.Claim
import Verif.Props.Swap
import Verif.Props.Engine
import Verif.Props.Book
import Verif.Props.Funds
import Verif.Proofs.AuthObs
import Verif.Proofs.QueryObs
import Verif.Props.Auth
import Verif.Props.Query
import Verif.Props.Tx
import Verif.Proofs.SyncObs
import Verif.Props.Sync
import Verif.Proofs.TreeFuel
import Verif.Proofs.TreeObs
import Verif.Props.Tree
import Verif.Props.Isolation
import Verif.Props.Errors
import Verif.Props.Log
import Verif.Props.Econ
import Verif.Props.Setup
import Verif.Props.Pointer
import Verif.Props.AdminErrors
import Verif.Props.Quote
import Verif.Props.ConfLog
import Verif.Props.Block
import Verif.Props.Flow
import Verif.Props.Exit
import Verif.Props.Commute
import Verif.Props.Delete
import Verif.Props.Room
import Verif.Props.Refine
import Verif.Props.Answers
import Verif.Props.Storage
import Verif.Props.Refuse
import Verif.Conformance.TickMathCases
import Verif.Conformance.OrderCases
import Verif.Conformance.MarketCases
import Verif.Conformance.ClaimCases
import Verif.Conformance.PriceCases
import Verif.Conformance.ListCases
import Verif.Conformance.SudoCases
import Verif.Conformance.AuthCases
import Verif.Conformance.TreeCases
import Verif.Conformance.Scenarios
import Verif.Conformance.E2E
import Verif.Props.Text
import Verif.Props.Sym
import Verif.Props.Local
import Verif.Props.Json
import Verif.Props.TextEvents
import Verif.Props.Life
import Verif.Props.Exchange
import Verif.Props.Surplus
import Verif.Props.Progress
import Verif.Props.Cost
import Verif.Props.CostAdmin
import Verif.Props.Reads
import Verif.Props.Wire
import Verif.Props.Says
import Verif.SpecSize
import Verif.Props.Size
import Verif.SpecScan
import Verif.Proofs.Scan
import Verif.Props.Scan
import Verif.Props.Worth
import Verif.Props.Exploit
import Verif.Props.Harm
import Verif.Props.Leave
import Verif.Props.Reenter
import Verif.Props.QuerySays
import Verif.Props.Live
import Verif.Props.Snapshot
import Verif.Props.Wane
import Verif.Props.E2e
import Verif.Props.WaneQuote
import Verif.Props.Octets
import Verif.Props.Capacity
import Verif.Props.Fee
import Verif.Props.Ids
import Verif.Props.Market
import Verif.Props.Functions
