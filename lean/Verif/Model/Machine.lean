import Verif.Model.Config
import Verif.Model.Torrent
import Verif.Lts
/-! # Processes of the program on one machine

Every process of the program, whatever its command is, first initialises the packages it consists of (Go runs this before `main`): package `config`
reads ./conf/config.json or creates it (config/config.go:46-87), package `dht` resolves the configured port, opens the UDP socket and makes the
info-hash channel (dht/dht.go:11-20, dht/fetchtorrent.go:14; variables of a package are initialised in the order of files and declarations unless
one needs another). Then `main` reads the section `logger` (main.go:10) and cobra runs the command (main.go:11, cmd/root.go:30-34).

Here: any number of processes started in one directory, step by step, with other programs that open sockets and a user who edits the file.
Simplifications: what a running crawler does is `Model/System`; here it runs and ends at some moment. Everything that can fail for reasons of its
own (opening the socket, writing the file) may fail at any time. Assumed of the operating system: a UDP port is bound by one socket at a time (Go's
`net.ListenUDP` does not ask for address reuse). Usage texts and unknown commands (cobra) are left out. -/
namespace P2P

/-- commands: cmd/root.go:14-19, 26-27 -/
inductive Cmd where
  /-- the crawler -/
  | root
  /-- cmd/version.go -/
  | version
  /-- cmd/torrent.go -/
  | torrent (args : List Bytes)

/-- ./conf/config.json, as `viper.ReadInConfig` sees it (config/config.go:73-76) -/
inductive ConfFile (S : Type) where
  | missing
  /-- it cannot be read or parsed -/
  | bad
  | good (s : S)

/-- parameters: what viper makes of the settings (see `Model/Config`) and the fields of the sections that matter here -/
structure InitEnv (S V : Type) where
  view : S → CfgKey → Option V
  /-- the defaults set by config/config.go:50-66; the file that `SafeWriteConfig` writes is read back as the same settings -/
  defaults : S
  /-- `dhtConfig.Port` -/
  portOf : V → Int
  /-- `fetchTorrentConfig.InfoHashQueueSize` -/
  queueOf : V → Int
  /-- the greatest size `make(chan …)` accepts -/
  maxChan : Int

inductive HowEnded where
  /-- the command returned -/
  | returned
  /-- a panic that nothing recovers -/
  | panicked
  /-- from outside -/
  | killed
deriving DecidableEq

/-- where a process is -/
inductive Proc (S : Type) where
  | none
  /-- before config/config.go:73 -/
  | start (c : Cmd)
  /-- the file was not found; before config/config.go:81 -/
  | missing (c : Cmd)
  /-- package `config` is initialised; before dht/dht.go:12 -/
  | configured (c : Cmd) (s : S)
  /-- the socket is open (dht/dht.go:19 with dht/krpc/udp.go:73-94); before dht/fetchtorrent.go:14 -/
  | bound (c : Cmd) (s : S) (port : Nat)
  /-- all packages are initialised; before main.go:10 -/
  | ready (c : Cmd) (s : S) (port : Nat)
  /-- main.go:10 is done; in the command -/
  | running (c : Cmd) (s : S) (port : Nat)
  | ended (how : HowEnded)

/-- who has opened a port -/
inductive Holder where
  | proc (p : Nat)
  | other
deriving DecidableEq

structure MachSt (S : Type) where
  conf : ConfFile S
  procs : Nat → Proc S
  holder : Nat → Option Holder
  /-- what each process has printed on its standard output with `fmt.Printf` -/
  out : Nat → List Bytes

/-- the end of a process closes its socket -/
def MachSt.stop {S : Type} (m : MachSt S) (p : Nat) (how : HowEnded) : MachSt S :=
  { m with procs := upd m.procs p (.ended how)
           holder := fun q => if m.holder q = some (.proc p) then none else m.holder q }

/-- cmd/version.go:14 with config/config.go:9 -/
def versionLine : Bytes := b!"p2pcrlawer version 0.1.0\r\n"

/-- no process has been started -/
def MachInit {S : Type} (m : MachSt S) : Prop :=
  (∀ p, m.procs p = .none) ∧ (∀ q, m.holder q ≠ none → m.holder q = some .other) ∧ ∀ p, m.out p = []

inductive MachStep {S V : Type} (E : InitEnv S V) : MachSt S → MachSt S → Prop where
  /-- a process is started -/
  | exec {m} (p : Nat) (c : Cmd) : m.procs p = .none → MachStep E m { m with procs := upd m.procs p (.start c) }
  /-- config/config.go:73: the file is read -/
  | read {m} (p : Nat) (c : Cmd) (s : S) : m.procs p = .start c → m.conf = .good s →
      MachStep E m { m with procs := upd m.procs p (.configured c s) }
  /-- config/config.go:73-74: there is no file -/
  | readMissing {m} (p : Nat) (c : Cmd) : m.procs p = .start c → m.conf = .missing →
      MachStep E m { m with procs := upd m.procs p (.missing c) }
  /-- config/config.go:75 -/
  | readBad {m} (p : Nat) (c : Cmd) : m.procs p = .start c → m.conf = .bad → MachStep E m (m.stop p .panicked)
  /-- config/config.go:78-81: the file is created, unless there is one by now -/
  | create {m} (p : Nat) (c : Cmd) : m.procs p = .missing c → m.conf = .missing →
      MachStep E m { m with conf := .good E.defaults, procs := upd m.procs p (.configured c E.defaults) }
  /-- config/config.go:81-82: `SafeWriteConfig` fails, in particular if there is a file -/
  | createFails {m} (p : Nat) (c : Cmd) : m.procs p = .missing c → MachStep E m (m.stop p .panicked)
  /-- dht/dht.go:12 (config/config.go:110-112): the section cannot be decoded -/
  | noSection {m} (p : Nat) (c : Cmd) (s : S) : m.procs p = .configured c s → E.view s .dht = none → MachStep E m (m.stop p .panicked)
  /-- dht/dht.go:18 (dht/node.go:59-65): the port is none -/
  | badPort {m} (p : Nat) (c : Cmd) (s : S) (v : V) : m.procs p = .configured c s → E.view s .dht = some v →
      (E.portOf v < 0 ∨ 65536 ≤ E.portOf v) → MachStep E m (m.stop p .panicked)
  /-- dht/dht.go:19 (dht/krpc/udp.go:79): the port is free -/
  | listen {m} (p : Nat) (c : Cmd) (s : S) (v : V) (port : Nat) : m.procs p = .configured c s → E.view s .dht = some v →
      E.portOf v = port → port ≠ 0 → port < 65536 → m.holder port = none →
      MachStep E m { m with procs := upd m.procs p (.bound c s port), holder := upd m.holder port (some (.proc p)) }
  /-- dht/dht.go:19 (dht/krpc/udp.go:79): port 0 means any free port -/
  | listenAny {m} (p : Nat) (c : Cmd) (s : S) (v : V) (port : Nat) : m.procs p = .configured c s → E.view s .dht = some v →
      E.portOf v = 0 → port ≠ 0 → port < 65536 → m.holder port = none →
      MachStep E m { m with procs := upd m.procs p (.bound c s port), holder := upd m.holder port (some (.proc p)) }
  /-- dht/krpc/udp.go:80-82: the socket cannot be opened, in particular if the port is taken -/
  | listenFails {m} (p : Nat) (c : Cmd) (s : S) (v : V) : m.procs p = .configured c s → E.view s .dht = some v →
      MachStep E m (m.stop p .panicked)
  /-- dht/fetchtorrent.go:14: the channel is made -/
  | queue {m} (p : Nat) (c : Cmd) (s : S) (port : Nat) (v : V) : m.procs p = .bound c s port → E.view s .fetchTorrent = some v →
      0 ≤ E.queueOf v → E.queueOf v ≤ E.maxChan → MachStep E m { m with procs := upd m.procs p (.ready c s port) }
  /-- dht/fetchtorrent.go:14: the section cannot be decoded or the size is none -/
  | badQueue {m} (p : Nat) (c : Cmd) (s : S) (port : Nat) : m.procs p = .bound c s port →
      (∀ v, E.view s .fetchTorrent = some v → E.queueOf v < 0 ∨ E.maxChan < E.queueOf v) → MachStep E m (m.stop p .panicked)
  /-- main.go:10 -/
  | main {m} (p : Nat) (c : Cmd) (s : S) (port : Nat) (v : V) : m.procs p = .ready c s port → E.view s .logger = some v →
      MachStep E m { m with procs := upd m.procs p (.running c s port) }
  /-- main.go:10: the section cannot be decoded -/
  | noLogger {m} (p : Nat) (c : Cmd) (s : S) (port : Nat) : m.procs p = .ready c s port → E.view s .logger = none →
      MachStep E m (m.stop p .panicked)
  /-- cmd/version.go:13-15 -/
  | version {m} (p : Nat) (s : S) (port : Nat) : m.procs p = .running .version s port →
      MachStep E m { m.stop p .returned with out := upd m.out p (m.out p ++ [versionLine]) }
  /-- cmd/torrent.go:18-31, on the files as they are -/
  | torrent {m} (p : Nat) (args : List Bytes) (s : S) (port : Nat) (fs : TorrentFs) : m.procs p = .running (.torrent args) s port →
      MachStep E m { m.stop p (if (torrentCmd fs args).ended = .ok () then .returned else .panicked) with
        out := upd m.out p (m.out p ++ (torrentCmd fs args).lines) }
  /-- cmd/root.go:36-52: the crawler ends, in whatever way (`Model/System`) -/
  | crawled {m} (p : Nat) (s : S) (port : Nat) (how : HowEnded) : m.procs p = .running .root s port → MachStep E m (m.stop p how)
  /-- a process is killed -/
  | kill {m} (p : Nat) : m.procs p ≠ .none → (∀ how, m.procs p ≠ .ended how) → MachStep E m (m.stop p .killed)
  /-- another program opens a port -/
  | otherBinds {m} (q : Nat) : m.holder q = none → MachStep E m { m with holder := upd m.holder q (some .other) }
  /-- another program closes a port -/
  | otherCloses {m} (q : Nat) : m.holder q = some .other → MachStep E m { m with holder := upd m.holder q none }
  /-- somebody changes the file -/
  | edit {m} (f : ConfFile S) : MachStep E m { m with conf := f }

end P2P
