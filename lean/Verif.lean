import Verif.Model.Query
import Verif.Model.Par
import Verif.Model.History
import Verif.Model.Swaps
import Verif.Proofs.CompSet
import Verif.Properties.Entities
import Verif.Properties.Masks
import Verif.Proofs.Group
import Verif.Proofs.GroupLoop
import Verif.Proofs.Store
import Verif.Proofs.StoreOps
import Verif.Proofs.SetLayout
import Verif.Proofs.World
import Verif.Proofs.Swaps
import Verif.Proofs.Even
import Verif.Proofs.Static
import Verif.Proofs.Fresh
import Verif.Proofs.Indexes
import Verif.Proofs.AllSets
import Verif.Proofs.Safe
import Verif.Proofs.Versions
import Verif.Proofs.Observe
import Verif.Spec.Query
import Verif.Proofs.Query
import Verif.Spec.Alias
import Verif.Proofs.Borrow
import Verif.Proofs.QueryRange
import Verif.Proofs.QueryIter
import Verif.Properties.Components
import Verif.Properties.Storage
import Verif.Properties.Queries
import Verif.Proofs.Alias
import Verif.Properties.Aliasing
import Verif.Proofs.Places
import Verif.Properties.Writes
import Verif.Properties.Safety
import Verif.Properties.Indexes
import Verif.Properties.Layouts
import Verif.Properties.Atomic
import Verif.Model.Drops
import Verif.Spec.Ledger
import Verif.Proofs.Ledger
import Verif.Properties.Ledger
import Verif.Model.RawSet
import Verif.Model.Bombs
import Verif.Spec.RawSet
import Verif.Spec.Bombs
import Verif.Proofs.RawSet
import Verif.Proofs.Replaced
import Verif.Proofs.Bombs
import Verif.Properties.RawSet
import Verif.Properties.Replaced
import Verif.Properties.Bombs
import Verif.Model.View
import Verif.Proofs.Ranges
import Verif.Properties.Views
import Verif.Model.SparseCalls
import Verif.Spec.SparseMap
import Verif.Properties.SparseVec
import Verif.Properties.Slices
import Verif.Proofs.Exact
import Verif.Properties.Exact
import Verif.Proofs.Panics
import Verif.Spec.Panics
import Verif.Properties.Panics
import Verif.Proofs.Lone
import Verif.Spec.Lone
import Verif.Model.SwapsOf
import Verif.Proofs.OneType
import Verif.Proofs.LoneStep
import Verif.Proofs.OneTypeEven
import Verif.Properties.OneType
import Verif.Properties.Lone
import Verif.Proofs.Uneven
import Verif.Proofs.UnevenCalls
import Verif.Properties.Uneven
import Verif.Spec.Hidden
import Verif.Proofs.Hidden
import Verif.Properties.Hidden
import Verif.Properties.Grouped
import Verif.Model.QueryBuild
import Verif.Properties.QueryBuild
import Verif.Spec.Named
import Verif.Properties.Named
import Verif.Proofs.Settled
import Verif.Proofs.LoneQuery
import Verif.Properties.LoneQueries
import Verif.Spec.Erase
import Verif.Proofs.EraseLoop
import Verif.Proofs.EraseStore
import Verif.Proofs.EraseLayout
import Verif.Proofs.EraseMap
import Verif.Proofs.EraseStep
import Verif.Proofs.EraseReach
import Verif.Proofs.EraseQuery
import Verif.Properties.Families
import Verif.Properties.TupleOrder
import Verif.Properties.VisitOrder
import Verif.Proofs.Leftover
import Verif.Properties.Leftover
import Verif.Spec.Types
import Verif.Proofs.Types
import Verif.Properties.Types
import Verif.Properties.Composed
import Verif.Properties.SameQuery
import Verif.Spec.HashOrder
import Verif.Proofs.HashOrder
import Verif.Proofs.HashQuery
import Verif.Properties.HashOrder
import Verif.Properties.RepoTests
import Verif.Spec.Rows
import Verif.Proofs.Rows
import Verif.Properties.Rows
import Verif.Properties.Uses
import Verif.Properties.Emptied
import Verif.Spec.Moves
import Verif.Proofs.Moves
import Verif.Properties.Moves
import Verif.Spec.Labels
import Verif.Proofs.Labels
import Verif.Properties.Labels
import Verif.Spec.Growth
import Verif.Properties.Growth
import Verif.Spec.Found
import Verif.Proofs.Found
import Verif.Proofs.FoundStep
import Verif.Properties.Found
import Verif.Spec.Misplaced
import Verif.Proofs.Aligned
import Verif.Proofs.AlignedStore
import Verif.Proofs.AlignedWorld
import Verif.Proofs.AlignedQuery
import Verif.Properties.Misplaced
import Verif.Spec.Tables
import Verif.Proofs.Tables
import Verif.Proofs.TablesLife
import Verif.Properties.Tables
import Verif.Spec.Roll
import Verif.Proofs.Roll
import Verif.Properties.Roll
import Verif.Spec.Sights
import Verif.Properties.Sights
import Verif.Spec.BombLedger
import Verif.Proofs.BombLedger
import Verif.Properties.BombLedger
import Verif.Properties.LayoutsExact
import Verif.Spec.Torn
import Verif.Proofs.Torn
import Verif.Properties.Torn
import Verif.Spec.LayoutPanic
import Verif.Proofs.LayoutPanic
import Verif.Properties.LayoutPanic
import Verif.Model.Debug
import Verif.Properties.Debug
import Verif.Spec.Again
import Verif.Properties.Again
import Verif.Spec.Quiet
import Verif.Properties.Quiet
import Verif.Spec.Opaque
import Verif.Proofs.Opaque
import Verif.Properties.Opaque
import Verif.Spec.Rename
import Verif.Properties.Rename
import Verif.Properties.RenameFair
import Verif.Properties.Absent
