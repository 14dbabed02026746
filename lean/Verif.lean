import Verif.Model.Reader
import Verif.Model.Config
import Verif.Model.State
import Verif.Spec.Ym2151
import Verif.Spec.Vgm
import Verif.Lemmas.Regs
import Verif.Lemmas.RegRefine
import Verif.Lemmas.StateRefine
import Verif.Lemmas.Apply
import Verif.Lemmas.Sort
import Verif.Lemmas.Reader
import Verif.Props.State
import Verif.Props.Reader
import Verif.Props.Header
import Verif.Props.Process
import Verif.Model.Heap
import Verif.Lemmas.Heap
import Verif.Props.Heap
import Verif.Model.Float
import Verif.Model.Ticks
import Verif.Spec.Ticks
import Verif.Lemmas.Float
import Verif.Lemmas.Ticks
import Verif.Props.Ticks
import Verif.Model.Text
import Verif.Model.Note
import Verif.Spec.Pitch
import Verif.Lemmas.Text
import Verif.Props.Note
import Verif.Model.Xrns
import Verif.Lemmas.Bpm
import Verif.Spec.Song
import Verif.Lemmas.Xrns
import Verif.Props.Xrns
import Verif.Model.Csv
import Verif.Spec.Csv
import Verif.Lemmas.Csv
import Verif.Props.Csv
import Verif.Model.Json
import Verif.Spec.Json
import Verif.Lemmas.Json
import Verif.Props.Json
import Verif.Model.Xml
import Verif.Model.Zip
import Verif.Spec.Xml
import Verif.Spec.Zip
import Verif.Spec.SongFile
import Verif.Lemmas.Xml
import Verif.Lemmas.SongXml
import Verif.Lemmas.Zip
import Verif.Lemmas.SongText
import Verif.Props.Writer
import Verif.Model.Main
import Verif.Spec.Main
import Verif.Props.Main
import Verif.Spec.EndToEnd
import Verif.Props.EndToEnd
import Verif.Spec.Report
import Verif.Lemmas.Report
import Verif.Props.Report
import Verif.Spec.History
import Verif.Model.Crash
import Verif.Lemmas.Crash
import Verif.Props.Crash
import Verif.Model.Args
import Verif.Spec.Args
import Verif.Lemmas.Args
import Verif.Lemmas.ArgsInt
import Verif.Lemmas.ArgsLoop
import Verif.Props.Args
import Verif.Model.Attr
import Verif.Props.Attr
import Verif.Props.Damaged
import Verif.Model.SongApi
import Verif.Spec.SongApi
import Verif.Lemmas.SongApi
import Verif.Props.SongApi
import Verif.Model.CsvFile
import Verif.Props.CsvFile
import Verif.Spec.Decimal
import Verif.Props.Fraction
import Verif.Model.Multi
import Verif.Lemmas.Multi
import Verif.Spec.Multi
import Verif.Props.Multi
import Verif.Model.Live
import Verif.Props.Live
import Verif.Spec.Alike
import Verif.Props.Alike
import Verif.Spec.Tempo
import Verif.Props.Tempo
import Verif.Conform.Repo
import Verif.Model.Faults
import Verif.Lemmas.Faults
import Verif.Lemmas.FaultsZip
import Verif.Props.Faults
import Verif.Spec.Disk
import Verif.Lemmas.FaultsDisk
import Verif.Lemmas.FaultsDiskZip
import Verif.Props.Disk
import Verif.Model.Io
import Verif.Lemmas.Io
import Verif.Props.Io
import Verif.Spec.Relate
import Verif.Props.Relate
import Verif.Model.Conc
import Verif.Props.Conc
import Verif.Spec.Optimise
import Verif.Props.Optimise
import Verif.Spec.Mix
import Verif.Props.Mix
import Verif.Model.IoFaults
import Verif.Props.IoFaults
import Verif.Model.Calls
import Verif.Spec.Shown
import Verif.Props.Calls
import Verif.Props.Beat
import Verif.Spec.CsvBack
import Verif.Props.CsvBack
import Verif.Model.Short
import Verif.Spec.Short
import Verif.Props.Short
import Verif.Props.CsvRelate
import Verif.Model.Desk
import Verif.Props.Desk
import Verif.Spec.Wide
import Verif.Props.Wide
import Verif.Model.Alias
import Verif.Props.Alias
import Verif.Spec.Rhythm
import Verif.Props.Rhythm
import Verif.Props.Clocks
import Verif.Spec.Size
import Verif.Props.Size
import Verif.Model.Changing
import Verif.Props.Changing
import Verif.Model.Encoder
import Verif.Spec.Encoder
import Verif.Props.Encoder
import Verif.Lemmas.XmlEnd
import Verif.Lemmas.Damage
import Verif.Lemmas.DamageData
import Verif.Lemmas.FaultsAny
import Verif.Lemmas.FaultsAnyText
import Verif.Props.AnyFaults
import Verif.Spec.Layout
import Verif.Props.Layout
import Verif.Model.Newlines
import Verif.Spec.Newlines
import Verif.Props.Newlines
import Verif.Model.Edits
import Verif.Spec.Edits
import Verif.Lemmas.Edits
import Verif.Props.Edits
import Verif.Spec.OwnSong
import Verif.Lemmas.OwnSong
import Verif.Props.OwnSong
import Verif.Spec.Schema
import Verif.Props.Schema
import Verif.Model.Xsdata
import Verif.Lemmas.Xsdata
import Verif.Spec.Xsdata
import Verif.Props.Xsdata
import Verif.Model.Assign
import Verif.Spec.Assign
import Verif.Props.Assign
import Verif.Model.JsonText
import Verif.Spec.JsonText
import Verif.Lemmas.JsonText
import Verif.Props.JsonText
import Verif.Model.Pool
import Verif.Spec.Pool
import Verif.Lemmas.Pool
import Verif.Props.Pool
import Verif.Model.Colours
import Verif.Spec.Colours
import Verif.Props.Colours
import Verif.Model.Threads
import Verif.Spec.Threads
import Verif.Props.Threads
import Verif.Spec.Parts
import Verif.Props.Parts
import Verif.Spec.SameSong
import Verif.Props.SameSong
import Verif.Spec.Score
import Verif.Props.Score
import Verif.Props.Rescore
import Verif.Spec.SameCsv
import Verif.Props.SameCsv
import Verif.Spec.Watch
import Verif.Props.Watch
import Verif.Spec.Interrupt
import Verif.Props.Interrupt
import Verif.Spec.Feeders
import Verif.Props.Feeders
import Verif.Props.FeedersEnd
import Verif.Props.FeedersApart
import Verif.Props.FeedersOut
import Verif.Spec.WatchExport
import Verif.Props.WatchExport
import Verif.Spec.FeedersExport
import Verif.Props.FeedersExport
import Verif.Spec.SharedReader
import Verif.Props.SharedReader
import Verif.Spec.Workers
import Verif.Props.Workers
import Verif.Props.WorkersLocked
import Verif.Spec.ReaderLock
import Verif.Props.ReaderLock
import Verif.Model.Ints
import Verif.Spec.Ints
import Verif.Props.Ints
