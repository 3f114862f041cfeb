import Verif.Props.Basics
import Verif.Props.Objects
import Verif.Props.Records
import Verif.Props.Refs
import Verif.Props.Streamers
import Verif.Props.TreeRecords
import Verif.Props.Layout
import Verif.Props.Puts
import Verif.Props.Storage
import Verif.Props.Keys
import Verif.Props.Reopen
import Verif.Props.Crash
import Verif.Props.TreeCounts
import Verif.Props.Derive
import Verif.Props.Cursor
import Verif.Props.BranchLookup
import Verif.Props.Counts
import Verif.Props.Baskets
import Verif.Props.Zip
import Verif.Props.BasketRoom
import Verif.Props.TreeSession
import Verif.Props.Big
import Verif.Props.Dictionary
import Verif.Props.Total
import Verif.Props.Containers
import Verif.Props.CppNames
import Verif.Props.Described
import Verif.Props.DeriveRead
import Verif.Props.Sizes
import Verif.Props.VectorInfos
import Verif.Props.UserInfo
import Verif.Props.RootBaskets
import Verif.Props.RootTrees
import Verif.Props.Dump
import Verif.Props.RootFiles
import Verif.Props.Format
import Verif.Props.Determinism
import Verif.Props.Walk
import Verif.Props.RootClosed
import Verif.Props.WrittenBaskets
import Verif.Props.LongColumns
import Verif.Props.AfterClose
import Verif.Props.LongNames
import Verif.Props.Feeds
import Verif.Props.Members
import Verif.Props.Closing
import Verif.Props.Maps
import Verif.Props.Texts
import Verif.Props.LongVectors
