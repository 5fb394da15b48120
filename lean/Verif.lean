import Verif.Model.Types
import Verif.Model.Keys
import Verif.Model.Str
import Verif.Model.Unicode
import Verif.Model.Macro
import Verif.Model.Ini
import Verif.Model.Config
import Verif.Model.Keyboard
import Verif.Model.Device
import Verif.Replay
import Verif.Spec.Reach
import Verif.Spec.Run
import Verif.Proofs.Sat
import Verif.Proofs.Engine
import Verif.Proofs.OutInv
import Verif.Proofs.Frames
import Verif.Proofs.Stored
import Verif.Props.Alternation
import Verif.Props.Strings
import Verif.Props.KeyNames
import Verif.Props.IniText
import Verif.Spec.WellFormed
import Verif.Proofs.ConfigInv
import Verif.Proofs.ConfigParse
import Verif.Proofs.ConfigTables
import Verif.Props.Bindings
import Verif.Props.Macros
import Verif.Props.Modifiers
import Verif.Proofs.LayerInv
import Verif.Props.Layers
import Verif.Props.Lookup
import Verif.Spec.Witness
import Verif.Proofs.LayerOps
import Verif.Proofs.Quiet
import Verif.Proofs.QuietPress
import Verif.Props.Clear
import Verif.Spec.Holding
import Verif.Proofs.Moves
import Verif.Proofs.Holders
import Verif.Proofs.Balance
import Verif.Props.Holding
import Verif.Proofs.Direct
import Verif.Props.Timers
import Verif.Props.Repeat
import Verif.Props.Devices
import Verif.Model.Daemon
import Verif.Proofs.DaemonSat
import Verif.Spec.DaemonHistory
import Verif.Proofs.DaemonInv
import Verif.Props.Daemon
import Verif.Props.Reload
import Verif.Proofs.NoFuel
import Verif.Proofs.Termination
import Verif.Proofs.Potential
import Verif.Proofs.FuelMono
import Verif.Props.Termination
import Verif.Spec.Arrivals
import Verif.Proofs.Conserve
import Verif.Proofs.Order
import Verif.Props.Arrivals
import Verif.Proofs.Tame
import Verif.Proofs.ChordInv
import Verif.Props.Chords
import Verif.Props.ChordLife
import Verif.Props.Document
import Verif.Props.Release
import Verif.Props.Overload
import Verif.Props.Waiting
import Verif.Props.Typewriter
import Verif.Props.Listeners
import Verif.Props.Deadlines
import Verif.Props.Files
import Verif.Props.Transfers
import Verif.Props.Discovery
import Verif.Proofs.Actions
import Verif.Props.Actions
import Verif.Props.Parsing
import Verif.Spec.Idle
import Verif.Proofs.Idle
import Verif.Props.Idle
import Verif.Spec.Performed
import Verif.Spec.Host
import Verif.Proofs.Performed
import Verif.Proofs.Shifts
import Verif.Props.Performed
import Verif.Props.MacroKeys
import Verif.Props.Client
import Verif.Props.Headings
import Verif.Props.Indicator
import Verif.Props.Routing
import Verif.Props.ChordLines
import Verif.Props.LayerActs
import Verif.Props.Transparent
import Verif.Props.Remap
import Verif.Model.Uinput
import Verif.Props.Wire
import Verif.Spec.Board
import Verif.Proofs.Places
import Verif.Proofs.Board
import Verif.Proofs.BoardActs
import Verif.Props.Board
import Verif.Props.Shipped
import Verif.Props.BoardDaemon
import Verif.Props.Managed
import Verif.Model.Cli
import Verif.Props.Cli
import Verif.Model.Monitor
import Verif.Props.Monitor
import Verif.Props.Log
import Verif.Model.Grab
import Verif.Props.Grab
import Verif.Props.Released
import Verif.Spec.Neat
import Verif.Proofs.Tidy
import Verif.Props.StuckModifiers
import Verif.Proofs.Uptime
import Verif.Props.Uptime
import Verif.Props.Unplug
import Verif.Props.Plug
import Verif.Props.Mapper
import Verif.Props.Wlroots
import Verif.Proofs.Chosen
import Verif.Props.Chosen
import Verif.Props.LiveStops
import Verif.Props.DaemonStops
import Verif.Model.Compose
import Verif.Spec.Receiver
import Verif.Props.Compose
import Verif.Model.ConfDir
import Verif.Props.ConfDir
import Verif.Model.Instance
import Verif.Props.Instance
import Verif.Model.Listen
import Verif.Proofs.LayerNames
import Verif.Props.Listen
import Verif.Model.Devmon
import Verif.Props.Devmon
import Verif.Model.Devdir
import Verif.Props.Devdir
import Verif.Model.WlWire
import Verif.Props.WlWire
import Verif.Model.Focus
import Verif.Props.Focus
import Verif.Model.Shutdown
import Verif.Props.Shutdown
import Verif.Model.Gadget
import Verif.Props.Gadget
import Verif.Props.Keyboards
import Verif.Props.Machines
import Verif.Props.Watchers
import Verif.Model.Terminal
import Verif.Props.Terminal
import Verif.Model.MapperLock
import Verif.Props.MapperLock
import Verif.Model.Command
import Verif.Props.Command
import Verif.Props.UptimeDaemon
import Verif.Props.FirstDevices
import Verif.Proofs.Original
import Verif.Props.BindLine
import Verif.Proofs.Unrelated
import Verif.Proofs.MacroBound
import Verif.Proofs.UnrelatedRun
import Verif.Props.OtherKeys
