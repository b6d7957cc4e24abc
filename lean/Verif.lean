import Verif.Props.Attr
import Verif.Props.Custom
import Verif.Props.Verify
import Verif.Props.Rules
import Verif.Props.Dims
import Verif.Props.Init
import Verif.Props.Lookup
import Verif.Props.History
import Verif.Props.Equals
import Verif.Props.Upgrade
import Verif.Props.Files
import Verif.Props.RoundTrip
import Verif.Props.Stream
import Verif.Props.Update
import Verif.Props.Copy
import Verif.Props.Total
import Verif.Props.Text
import Verif.Props.StreamText
import Verif.Props.Again
import Verif.Props.Misc
import Verif.Props.Values
import Verif.Props.Adding
import Verif.Props.Report
import Verif.Props.Deleting
import Verif.Props.SecondTrip
import Verif.Props.Trips
import Verif.Props.Warnings
import Verif.Props.Csv
import Verif.Props.Messages
import Verif.Props.Compiled
import Verif.Props.Loading
import Verif.Props.Known
import Verif.Props.ReadOnly
import Verif.Props.Independent
import Verif.Props.StreamLife
import Verif.Props.Reading
import Verif.Props.Session
import Verif.Props.Complete
import Verif.Props.Alias
import Verif.Props.Same
import Verif.Props.Order
import Verif.Props.Free
import Verif.Props.FreeEqual
import Verif.Props.Lists
import Verif.Props.Json
import Verif.Props.Resize
import Verif.Props.Spelling
import Verif.Props.OneByOne
import Verif.Props.Extended
import Verif.Props.ExtendedRead
import Verif.Props.FileOrder
import Verif.Props.WriteOrder
import Verif.Props.Assign
import Verif.Props.Rows
import Verif.Props.Folder
import Verif.Props.Tables
import Verif.Props.OrderUpgrade
import Verif.Props.StreamOrder
import Verif.Props.SharedNames
import Verif.Props.InspectOrder
