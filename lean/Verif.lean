import Verif.Props.Wire
import Verif.Props.Types
import Verif.Props.Column
import Verif.Props.Block
import Verif.Props.Protocol
import Verif.Props.Cmd
import Verif.Props.Options
import Verif.Props.Transport
import Verif.Props.Client
import Verif.Props.Pool
import Verif.Props.Decimal
import Verif.Props.Values
import Verif.Props.FromSql
import Verif.Props.StringPool
import Verif.Props.Rows
import Verif.Props.Cast
import Verif.Props.Iter
import Verif.Props.From
import Verif.Props.Fetch
import Verif.Props.Share
import Verif.Props.PoolDrop
import Verif.Props.Names
import Verif.Props.Connect
import Verif.Props.Refine
import Verif.Props.Verdict
import Verif.Props.Tight
import Verif.Props.Settings
import Verif.Props.Cursor
import Verif.Props.Hostile
import Verif.Props.Show
import Verif.Props.Into
import Verif.Props.Native
import Verif.Props.Keys
import Verif.Props.Insert
import Verif.Props.Answer
import Verif.Props.Store
import Verif.Props.Service
import Verif.Props.City
import Verif.Props.Faults
import Verif.Props.Socket
import Verif.Props.Log
import Verif.Props.Outage
import Verif.Props.Answered
import Verif.Props.Cancel
import Verif.Props.Crowd
import Verif.Props.Total
import Verif.Props.Keep
import Verif.Props.Whole
import Verif.Props.Calendar
import Verif.Props.Written
import Verif.Props.Large
import Verif.Props.Trip
import Verif.Props.TripMaps
import Verif.Props.Reopen
import Verif.Props.Levels
import Verif.Props.Oversize
import Verif.Props.Float
import Verif.Props.Quotient
import Verif.Props.PoolCall
import Verif.Props.Lz4
import Verif.Conform.Texts
import Verif.Conform.Data
import Verif.Conform.Values
import Verif.Conform.Trips
import Verif.Props.Errors
import Verif.Props.Unambiguous
import Verif.Props.Defaults
import Verif.Props.Source
import Verif.Props.Memory
import Verif.Props.Url
import Verif.Props.Kept
import Verif.Props.Info
import Verif.Props.Release
import Verif.Props.ReleasePool
import Verif.Props.Endian
import Verif.Props.Stack
import Verif.Props.Narrow
import Verif.Props.Demand
