# Formal model of GalaIO/P2Pcrawler in Lean 4 - design

(Initial plan, written before the proofs; the sections below are kept current as the model grows.)

## Layout

* `lean/Verif/Base.lean` - Go basics: byte strings, `Res` (value / error / panic), `Itoa`/`Atoi`, hex, big endian.
* `lean/Verif/Lts.lean`, `lean/Verif/Fair.lean` - transition systems; infinite executions and fairness.
* `lean/Verif/Model/*.lean` - the model, function by function, every definition citing file:lines in /repo.
* `lean/Verif/Spec/*.lean` - small independent specifications (bencode grammar, bit prefixes, XOR distance, ...).
* `lean/Verif/Lemmas/*.lean` - proofs' helper lemmas.
* `lean/Verif/Props/*.lean` - the property theorems, one section per property, each with a non-vacuity `example`.

## Modelling conventions

* Go `string`/`[]byte` contents = `List UInt8`. Go `int` = `Int` with explicit 64-bit range checks and wrap-around
  where the code computes with untrusted values.
* A Go call returns `Res.ok v`, `Res.err e` (error result), `Res.panic p` or `Res.diverge`
  (`p` distinguishes runtime panics, `*misc.Error` panics and logger panics because recover sites distinguish them).
* Go maps = association lists without duplicate keys; the list order is *one* iteration order. Everything that iterates a map
  is stated for every reordering (at every nesting level).
* Goroutines = labelled transition systems (`Lts.lean`) whose steps are the code's atomic sections; properties are invariants
  over every reachable state of every interleaving. An unprotected access to a Go map takes two steps, so that overlaps
  (data races) are states of the model; the model makes no claim about what happens after one.
* Liveness (C85-C87, C92, C96) is stated for infinite executions under weak or strong fairness. Fairness is always a hypothesis of the theorem,
  never built into the model; fair executions are shown to exist.
* A sequential routine that interacts with shared objects (packet handler, download) is a function of an *oracle* or of
  an environment which answers each interaction arbitrarily; theorems quantify over all of them, hence over everything the other
  goroutines can do in between.

## Trusted base

1. **Lean 4.33.0's kernel**, and the elaborator insofar as the statements displayed are the ones checked. No Mathlib module is
   imported. `lake build` on a fresh checkout; no compiled code is trusted (`native_decide`, `bv_decide` are not used;
   concrete cases use `decide +kernel`, which is evaluated by the kernel).
2. **Axioms.** No axiom is declared. Every theorem depends on at most `propext`, `Quot.sound` and `Classical.choice`;
   `AXIOMS.md` lists the axioms of every theorem named in the manifest (output of `#print axioms`).
3. **The reading of the Go code**: that each definition under `Model/` does what the cited lines do. Nothing checks this but
   reading; the citations are there for it.
4. **The specifications** under `Spec/` and in the theorem statements.

### Parameters (no assumption unless stated in the theorem)

| parameter | stands for | used by |
|---|---|---|
| `FoldTable` | `unicode.SimpleFold` beyond ASCII (`strings.EqualFold` itself is modelled, including invalid UTF-8) | C14, C19-C24, C27 ff. |
| `Env.ip6` | text of an IPv6 address; IPv4 text is modelled | C19 ff., C47 |
| `sha1` | SHA-1; an arbitrary function, so "authentic" means: has that digest. `Model/Sha1` gives the concrete function (FIPS 180-4); C81 instantiates the theorems with it | C41, C46 |
| `cap` | capacity of `[]byte(s)` beyond `len` | C16 |
| `Oracle.stack` | text of `debug.Stack()` | C27 |
| `Oracle.order` | map iteration order | C27-C33 |
| `Oracle.lookup/addNode/nextTx/sendFails` | answers of the shared objects; tied to the real objects in the history theorems (C30, C31, C33) | C27-C34 |
| `PEnv` | the TCP connection and everything other goroutines do to the shared buffers. The environment's answers are functions of the history so far (`PEvent`s, ghost events such as `load` included), and every point at which others may act has a history of its own, so one environment can act differently at any two points | C41-C45, C57-C59 |
| `view` | how viper unmarshals a section of a file | C53 |
| `toUpper` | `strings.ToUpper` | C54 |
| `ConsoleEnv` | texts of runtime errors, stack, socket errors, `json.Marshal`; size of the table | C90 |
| `InitEnv`, `maxChan` | the fields of the decoded sections; the greatest size Go accepts for a channel | C105, C108 |
| `DlEnv`, `FlushEnv` | texts of runtime errors, stack, errors of connection, codec and file system, `json.Marshal`; whether creating and writing a file fails | C97 |

### Which code is modelled

| file | modelled | not modelled |
|---|---|---|
| misc/beancode.go | all functions; the number of active calls in `Model/Depth` (C104) | the size of stack frames (a parameter of C104) |
| misc/types.go, bits.go | all | |
| misc/strings.go | `Str2Bytes`/`Bytes2Str` as identity on contents, which `Model/Memory` justifies (C106: they share memory there); `ToString` see C66 | |
| misc/errors.go | codes, text, the four panic helpers | text of the stack trace (parameter) |
| misc/bytespool.go | all, with a heap of buffers | memory pressure |
| misc/syncmap.go | all, map accesses non-atomic | Go map internals |
| misc/workpool.go, shutdown.go | all, as transition systems; real time = nondeterministic timeouts | the Go scheduler itself (C85-C87 assume weak fairness; elsewhere progress is stated as "a step exists") |
| main.go, cmd/root.go:36-52 with misc/shutdown.go:46-91, dht/dht.go:37-40, RpcServer.Close | as one transition system (`Model/Program`) | flag parsing by cobra; the pprof server |
| misc/logger.go | levels, registry, `SetPrefix`, output text | the time stamp, stdout errors |
| misc/zap.go | level parsing, filtering, prefixes, fields (C68) | zap, lumberjack (file rotation) |
| misc/file.go | `IsDir` and friends where the torrent command uses them | |
| misc/pprof.go | no | starts an HTTP server; no logic |
| config/config.go | the caching of sections, which file is read when | viper, defaults written to disk |
| dht/krpc/*.go | all: messages, dispatch, chains, UDP receive loop, close; log statements of the packet handling (`Model/Console`), of the receive loop, `Listen` and `Close` (`Model/ProgramLog`) | kernel sockets (arbitrary packets, arbitrary failures) |
| dht/node.go, routetable.go, messgaes.go, requesthandler.go, resphandler.go, dht.go | all; log statements of the two handler files (`Model/Console`) and of routetable.go (`Model/RouteTableLog`) and dht.go (`Model/ProgramLog`) | `net.ResolveUDPAddr` (arbitrary result) |
| dht/peerwire/bep9.go, fetchtorrent.go, log statements | all (`Model/DownloadLog`), with the records of `peerWireLogger.Panic` in the codecs | |
| dht/fetchtorrent.go | all; file system = map from path to contents, partial and failing writes | permissions, crash consistency of the disk |
| dht/peerwire/*.go | all | scheduling time (C75 relates histories to real time; elsewhere a deadline = reads fail from some point on) |
| dht/fetchtorrent.go with misc/workpool.go and the directory | from the received packet to the file as one transition system (`Model/Whole`), crash and restart | power loss (only the death of the process is modelled), other programs changing the directory |
| main.go … the files: everything the `p2pcrawler` process does apart from logging, pprof and configuration | as one transition system (`Model/System`) | a call of `BootStrap` is one step (no handler runs while bootstrapping, C101); in `Model/System` a download is one step up to its file writes, in `Model/SystemNet` (C113) it stops before every use of connection, pool and buffers; connecting is one step; the log (C97, C98, C100 treat its parts) |
| several running copies (`Model/Network`) | datagrams under way, loss, duplication, delay, forged sources | the shared state of each copy (arbitrary oracle), IP fragmentation |
| cmd/*.go, main.go | start-up order, torrent command; several processes on one machine, with the version command (`Model/Machine`, C105) | cobra's parsing, usage texts |

General limits: sequentially consistent memory between the steps; a slice header is read and written in one step
(`Model/ShutdownReg`); unbounded memory except where a property is about allocation (C58).

### The repository's own tests, replayed

`RepoTests.lean` states every deterministic assertion of the repository's `_test.go` files as an `example` about the model; they guard the model against transcription errors and prove nothing beyond the literals. Some Go tests are stale and fail on the code as it is: the handshake test expects 01 in the last reserved byte, the error-text tests expect other texts, the message-prefix test other type numbers; the comments there say so and state what the code does. `TestSplitNode` (18 nodes with SHA-1 ids) was evaluated with the interpreter only, because the kernel is too slow for it.

## Disagreements between code and expectation, established by proof

* `DecodeString(EncodeString(s))` fails for every `s` containing `:` (C03).
* `DecodeDict` returns a nil dictionary *and* a nil error when bytes are left over (C08); truncated dictionaries are accepted
  when the cut is behind closing brackets (C06, C08).
* Decoders can panic on string lengths near 2^63 and on unterminated integers (C10); the packet handler recovers (C29).
* `GetValOrDefault` returns nil, never the default (C13: the parameter is shadowed by assignment).
* `AddNode` can return nil although the node was dropped (C21); `Size()` counts duplicates (C22); `Find` confuses ids that
  differ in case or in invalid UTF-8 bytes (C23); `FindClosest` does not return the closest nodes in general (C24).
* A middleware cannot stop the chain by not calling `Next` (C26).
* Responses are not checked against the address queried, and can be replayed (C30).
* `BytesPool` cannot detect a double `Put` (C36).
* A download's read deadline is one absolute second after connecting and is never renewed, so its ten-second limit hardly ever matters;
  writes have no deadline, so a peer that reads nothing and announces a large size holds a download worker forever (C75).
* Pieces of one download overwrite one another in the pooled buffer, so multi-piece downloads from an honest peer fail
  unless the pool happens to hold as many spare buffers as pieces, or the pieces repeat with that period (C44, exactly); one `Read` is taken for one message (C45).
* A received piece lies in a buffer already given back to the pool when the pieces are merged: one other download at the wrong moment makes an
  honest download fail, even of a single piece (C110); the same two downloads both succeed in one schedule and one fails in another (C111).
* A short extended handshake can make the process allocate up to 2^48 bytes (C58).
* For an IPv6 source without `implied_port` the fetch address cannot be dialled (C47).
* A failed write leaves a truncated torrent file (C46).
* Workers of a `WorkPool` never end (the `break` leaves the `select` only); `Shutdown` returns only through its timeout, and
  two overlapping `Shutdown`s can kill the process (C50).
* `SyncMap.Del` looks into the map without the lock (C52); so do `mapLogger` (C61) and the registration of clean-ups (C60),
  where the process can die of a negative WaitGroup counter.
* Handlers wait for room in the info-hash channel: when downloads hang, `Q + 2*W2 + 1 + W1` announces stop the whole server
  from answering any packet until a download returns (C62).
* `--config` only decides about pprof, the configured log level never takes effect (C53, C54).
* Error replies to ill-formed queries contain the stack trace of the server (C65); the flag `printStack` of errors is ignored
  (C66).
* Log values are not escaped: whoever controls a logged value can forge records (C66).
* A query type in another case passes the test for known types and is then refused; handlers can be registered under names
  that no ordinary query uses (C65, C67).
* `NewZapLogger` knows neither WARN nor TRACE nor lower case names; an empty prefix is printed as `[]` (C68).
* `consoleLogger.Panic` does not panic at level TRACE, `Trace` is printed at every level (C54).
* 500 announces (the default number of download workers) whose peers send a handshake and an announcement and then read nothing stop
  all downloading for good: writes have no deadline (C75, C76).
* Node ids are compared as case-insensitive UTF-8 text: ids differing only in invalid bytes or in letter case are the same (C77).
* Error replies carry a stack trace to the unverified source of a query: 22 bytes are answered with the whole trace (C78). A response can be
  replayed without limit: the pending request is never consumed and stored nodes are queried again (C79).
- A response that cannot be bencoded (nil body) is answered with an empty datagram; a handler that writes no response makes the server panic and recover, and the querier gets nothing (C80).
- The crawl stops growing by itself: full buckets are never refreshed, so at most 1288 nodes are ever queried (C82), and at most eight nodes of the half of the key space that does not begin like the own id.
- Signals are ignored while the program is bootstrapping (C83); the end of the program waits neither for packets received nor for downloads, and a signal during the registration of the clean-up can kill the process in `wg.Done()` or leave the socket open.
- Replies are accepted from any address (C30) and transaction numbers count up from 1001, so anybody can send a reply to the first query and have nodes of his choice offered to the route table (C89_injection); as nodes are never removed (C20), one datagram with eight nodes occupies half of the key space for ever (C82_half).
- The console log misleads (C90): queries are logged as "response handle", a response that was handled ends with "cannot match request ignore", "Bytes sended" follows a reply that the kernel refused, a failed query is printed as `{}`; any sender can write arbitrary lines into it through `t`, `q` or `id`.
- The encoders build their output with `+=`, so encoding takes quadratic time in the worst case (C91); decoding is linear.
- Nothing creates the directory `torrent`, neither the program nor `run.sh`: where it is missing every download is thrown away, with an error message only (C92_no_directory).
- A torrent that is announced again is downloaded again and its file emptied first; a process killed at that moment leaves an empty or truncated file, which no later start repairs unless the torrent is announced again (C93).
- One saved file that is no dictionary – the crawler saves any bytes with the announced hash – makes `p2pcrawler torrent torrent` panic at that file, so the rest of the directory is not listed; anybody who can announce can cause it (C94).
- Crawlers are useless to each other: every find_node and get_peers reply lists no nodes, so a network of crawlers only learns what others tell it (C95); on the other hand it cannot fall into a packet storm.
- The torrent command reads files of any length and decodes by recursion: for every limit of the stack there is a valid bencoded file that exceeds it, which ends the process without a panic that could be recovered (C104). Datagrams and peer messages are too short for that.
- Every command, even `version`, opens the crawler's UDP port and creates ./conf/config.json before it does anything (package initialisation). So torrents cannot be listed while the crawler runs, and a `version` at the wrong moment keeps a crawler from starting (C105). Assumed: the operating system gives a UDP port to one socket at a time.
- A link-local IPv6 source has a zone; it is part of the address that replies go to and of the `implied_port` fetch address, and is lost in compact node and peer infos (C15, C16, C47).
* Whether an honest peer's torrent is stored depends on the schedule: from one and the same state one order of turns of two downloads stores it and another ends with a check sum error, because pieces are used after their buffers have been given back (C115); with one download worker and one piece this cannot happen.
* With one download worker no torrent of two or more pieces is stored (unless each piece is the beginning of the one before it): all pieces are received into one buffer (C116).

## Plan per property

| id | model | proof |
|----|-------|-------|
| C01-C12 | `Model/Bencode` : index-based decoder with explicit panics, encoder over value trees | round trip by structural induction; decoder <-> grammar (`Spec/Bencode`) by induction on fuel / derivation; fuel adequacy = termination |
| C13-C14 | `Model/Types` | case analysis |
| C15-C16 | `Model/Node` | induction on lists |
| C17 | `Model/Node` with 16-bit counter, LTS for goroutines | modular arithmetic, invariant |
| C18 | `Model/RouteTable` | induction on bytes; bit-level spec in `Spec/Bits` |
| C19-C24 | `Model/RouteTable` | invariant over AddNode histories, recursion on capacity - lastBucketIndex |
| C25 | LTS of bucket lock sections | invariant |
| C26 | handler programs as finite trees, shared index | induction |
| C27-C34 | `Model/Krpc`, `Model/Dht`: total packet handler over a world state | case analysis + C04/C05 |
| C35-C37 | `Model/BytesPool`, `Model/Udp` heap of buffers | invariants |
| C38-C45 | `Model/Peerwire` with chunked reader, heap and pool | induction over read loop |
| C46-C47 | `Model/Fetch` | composition with C41 |
| C48-C51 | LTS of workpool / shutdown | invariants, unreachability |
| C52 | LTS + sequential map | refinement |
| C53-C55 | small state machines | induction |
| C56 | LTS of receive loop and `Close` | invariant, step bound |
| C57-C59 | `Model/Peerwire` | invariants of the read loop, induction on remaining reads |
| C60 | `Model/ShutdownReg`: registering goroutines and the two reads of the list | invariant; races exhibited as runs |
| C61 | `Model/LoggerConc`: double-checked look-up with non-atomic map accesses | invariant; race exhibited as a run |
| C62 | `Model/Pipeline`: receive queue, packet pool, info-hash channel, download pool as one LTS; handler traces from `Model/Dht` | invariants, decreasing measure, constructed stall run |
| C63 | `Model/Startup`: main goroutine, `Run`, receive goroutine; histories of `Spec/Krpc` | invariant, decreasing measure, trace splitting |
| C64 | `Model/RouteTable` | case analysis of one insertion, induction over histories |
| C65 | `Model/Krpc`, `Model/Dht` | specification of the first problem of a query; case analysis of the dispatch |
| C66 | `Model/LogText` | induction over entries in any order |
| C67 | `Model/Krpc` | induction over histories of registrations |
| C68 | `Model/Zap` | case analysis, induction over the field loop |
| C69 | records as events of `Model/Krpc`, `Model/Dht`; `Model/Pipeline`, `Model/Fetch` | exact traces of handlers; invariant of the pipeline |
| C70 | `Spec/Download`: a fold over the messages; `Model/Peerwire` | simulation by induction over the messages, every buffer tracked by its content and turn; C44: closed form for honest peers by induction over the pieces (`Spec/Pieces`) |
| C71 | `Model/Peerwire` | trace invariant of the loop |
| C72 | `Model/Dht`, `Model/Krpc` | exact dictionaries; composition of C05, C15, C16, C33 |
| C73 | `Model/RouteTableConc` | methods as access-by-access programs under a readers-writer lock; inductive invariant tying the table to the sequential model (`Model/RouteTable`) after the log of insertions; rank for termination |
| C74 | `Spec/Client`: an automaton over interactions; `Model/Peerwire` | the phase as a trace invariant of every function, by Hoare triples |
| C75 | `Spec/Timing`: timings consistent with deadlines and timers | induction over the history; composition with C74 (requests) and C70 (the attacking peer) |
| C76 | `Model/Pipeline` with steps in which given downloads never return; `Spec/Timing` | invariants (a hanging download keeps its worker), pigeonhole, termination measure of C62, composition with C75 |
| C77 | `Spec/Identity`: byte classes, UTF-8 of RFC 3629, how a string is read; `Model/Fold`, `Model/RouteTable` | decoding inverts encoding (arithmetic), induction over the bytes; case analysis of one insertion |
| C78 | sizes of encodings (independent of map order) and a lower bound for the input a decoded value took (`Lemmas/Size`); `Model/Dht` | induction over values, over the decoder's recursion, permutations of map entries |
| C79 | `Model/Dht` with the shared objects of `Spec/Krpc.World` as the only oracle (`Lemmas/Answered`) | invariant of the handler monad and the chain, induction over the fan-out and over the number of copies |
| C80 | `Model/Krpc`, `Model/Middleware` with arbitrary `Handlers` (programs over the context) | case analysis of one packet over the outcome of the chain (C26), leaves of listings (C12) |
| C81 | `Model/Sha1`: the algorithm of FIPS 180-4 for `crypto/sha1`; `Spec/Sha1`: the formulas of the standard; `Model/Local`: the package-level values | lengths, kernel evaluation of the two ids, instances of C38, C43, C46, C78; the sliding window of the schedule and the chaining of blocks refine the indexed formulas by induction |
| C82 | histories (`Spec/Krpc`) starting from the table of `Model/Local` | induction over the history: every accepted node has a stored node that counts as the same, with at most one exception; injectivity of address texts |
| C83 | `Model/Program`: `Model/Startup` plus signals, `Wait4Shutdown`, `runCleans`, the clean-up, the socket and the receive goroutine | invariant over all interleavings; runs exhibited for the orderly end and for the kill |
| C84 | `Bucket` of `Model/RouteTable` | induction over the calls |
| C85 | infinite executions of `Model/WorkPool` (`Verif/Fair.lean`: `Run`, `WeaklyFair`, `StronglyFair`) | `eventually`: a measure (place in the queue, place of one worker in its loop) that no step increases and every move of the worker decreases |
| C86 | infinite executions of `Model/Pipeline`; the two pools are projected to C85 | stage by stage from the downloads back to the socket: room in a queue again and again, then the stage before it |
| C87 | infinite executions of `Model/Program` | measure of C83 with weak fairness of the main goroutine |
| C88 | the receiver of `Model/Udp` cuts datagrams to 1024 bytes; decoder and packet handler run on the cut bytes; `Spec/Part` says what part of a message means | induction over the value along the decoder: a decoded prefix of an encoding is a part of the value; sizes of encodings |
| C89 | histories of `Spec/Krpc` (`Model/Krpc`, `Model/Dht`, `Model/RouteTable`), positions in them | strong induction over the position at which a node is accepted; the oracle of the final objects extends a history by one packet |
| C90 | `Model/Console`: the packet handling with its log statements | erasure of the log gives `Model/Krpc`/`Model/Dht`; invariant `LogOk` through the monadic program; symbolic evaluation for the exact sequences; a packet for every line |
| C91 | `Model/Cost`: the codec of `Model/Bencode` with a counter (bytes looked at, bytes copied) | erasure of the counter; potential argument (cost plus size of what is left), mutual induction over budget resp. value; exact sum for the lower bound |
| C92 | `Model/Whole`: pipeline and directory as one transition system; whether the directory `torrent` exists is a parameter | simulation of both parts (`C92_refines`), invariant, weak fairness with a rank of `flushTorrentFile`; every pipeline execution is lifted for the existence of fair executions |
| C93 | `Model/Whole` (`AfterSessions`): lives of the process, each begun with the files the last one left and ended at any reachable state | induction on the lives, C92 for one life; explicit executions for the crash and the repair |
| C94 | `Model/Torrent` on the files of `Model/Whole` (`DirView` says what the command sees) | C55 for the listing, C92_announced and C93_stays for how an unlistable file gets there and stays |
| C95 | `Model/Network`: any number of copies of `dhtPacket`/`BootStrap` at their addresses, datagrams under way, strangers | potential function: weight of the datagrams under way (query 1, response 2 per listed node, crawler's reply 0) plus datagrams sent never grows except by bootstraps and strangers; C27, C33, C63, C88 for one packet |
| C96 | the concurrent models of C17, C25, C52, C61, C73, infinite executions | one liveness rule for programs that share a readers-writer lock (`Verif/Locks`): critical sections end, so the lock becomes free again and again (for writers: by the guarantee of `RWMutex` readers are kept out in the end), hence every goroutine moves on; lexicographic measure. Fair continuations of every finite execution; a starving execution without the guarantee |
| C97 | `Model/DownloadLog`: downloads and jobs with their log statements | relation `Tells` between a logged program and the unlogged one (same outcome, records of the right form, `Panic` records only at the end and with the panic they announce), compositional; invariant for the announced size; Hoare triples over state and log with reads as potential for the count |
| C98 | `Model/RouteTableLog`: route table with its log statements | erasure; induction over nested splits for the exact log of one insertion; alarm condition from the size accounting of C22; induction over histories |
| C99 | `Model/RouteTableLocks`: table over pointers to buckets, every bucket method with its lock operations | a lock discipline on programs, inductive over their structure; simulation by the model of C73 in which every open section is still to be run; sequential refinement for the bodies |
| C100 | `Model/ProgramLog`: `Model/Program` with the records of its four writing goroutines, written one at a time | projection to C83 and lifting of its runs; per goroutine an invariant "written ++ pending = script up to the program counter"; `C100_prefix` turns statements about states into statements about positions in the log |
| C101 | `Model/System`: `Model/Program`, `Model/Pipeline`, `Model/Whole` and the shared objects (pending requests, transaction counter, route table) as one transition system; what a handler does next depends on the shared objects at that moment, not on an oracle fixed in advance | refinement to each part (`C101_program`, `C101_crawler` with an oracle built from the history, `C101_history`), coupling invariant between the parts (`SysLink`); progress by answering every question of a handler from the shared objects; runs for any datagrams by a measure of the backlog |
| C102 | infinite executions of `Model/System` under `FairSys` (weak fairness of every goroutine, strong fairness of a handler blocked at the job channel; the receive goroutine need not get a datagram) | one oracle for a whole infinite execution (`sys_oracle`, as the limit of the oracles of its prefixes), which makes it an execution of `Model/Whole`; fairness carries over (`FairSys.whole`), then C86 and C92; the way of a datagram to the queue by the `moves_room` rule; fair executions from `calm_runs` |
| C103 | `Spec/Lives`: sequences of lives of `Model/System`, of which only the files survive; infinite executions fair to start-up and to the main goroutine | the termination measure of C83/C87 on the system (a step of the system is a step of `Model/Program` or leaves it alone); induction over the lives with C101_files; C93_repaired through `sys_crawler`; the run that loses a file from `calm_runs` (go back to the `create` step) followed by `C103_ends_anytime`; the ids by an invariant on the bootstrap calls |
| C104 | `Model/Depth`: the codec once more in a monad that records how many calls are active at once | equality with `Model/Bencode` by induction on fuel; depth ≤ 2n+1 because every call level consumes a byte; lower bounds by induction on the nesting; encoder by structural induction |
| C105 | `Model/Machine`: any number of processes with their initialisation step by step, who holds which port, the configuration file, the output; other programs and edits as steps | invariant (holders are exactly the processes with the socket open; what has been checked so far; no output before the end); one lemma listing what a step can do to one process; reachability for `can run` |
| C106 | `Model/Memory`: the decoders returning places instead of strings; arrays, strings and slices with addresses; steps that allocate and overwrite buffers, handle packets, read files, extend converted strings | equality with `Model/Bencode` by induction on fuel; invariant: strings that are kept lie in arrays that are no buffers and hold what was decoded; a concrete run for the conversion without a copy |
| C107 | `Model/ConfigConc`: accesses to the configuration map as operations that take time, by goroutines given by their accesses and the goroutines they start; those of the crawler as a list | two-phase invariant (the first goroutine is alone / all sections are cached) for every program with the discipline; a run of a program without it that races |
| C108 | `Model/PoolSize`: `NewWorkPool` for integer sizes; the start-up sequence of `Model/Startup` with the making of the two pools by two goroutines; for size 0 `Model/System` | invariant of the pools; measure and weak fairness for 'does not go on'; a pool of size 0 starts nothing, so `Model/System` does nothing; the stall of C62 with a pool of size 0; the bound 102 is attained |
| C109 | `Model/Udp` restricted to executions with W workers and W queue places | numeric invariant over all interleavings: each step stays, reuses, allocates (only from an empty pool), leaks or gives back |
| C110 | `Model/Peerwire`, its `interfere` restricted to what proper users of the pool do (`OthersDo`) | ownership invariant (held and pooled buffers are distinct) along every step; state triples for `C110_is_proper` and `C110_undisturbed` (the memory of piece buffers since a moment); two concrete downloads for the counterexamples |
| C111 | `Model/Interleave`: the download as a resumable program, any number of them taking turns on one memory and pool | each stoppable function, run to its end, equals that of `Model/Peerwire` (`run_*`); ownership logic over stops (`RTriple`); invariant of the net: what each holds is disjoint, and each has a history, a function `f` of others' doings with which one call alone comes to the same point; then C41 and C110 apply; termination: the resumable program is a well-founded tree |
| C112 | as C111, at every moment | the history of C111 for a download at a stop, and that running on only extends the trace; counts of taken and given-back buffers through the whole call (`HasOut`); each turn changes the pool only by the events it adds (`Since`, `PoolRuns`); a sum over all downloads that no event raises above the number under way |
| C113 | one transition system: `Model/System`, its downloads running step by step on one memory and pool (`Model/SystemNet`) | refinement: a download that has come out did what one call does among proper users of the pool (C111, C112), so the execution is one of `Model/System` with such a connection and C101 applies; forward, the downloads alone are a schedule of `Model/Interleave` in which at most W2 are under way, so C111 and C112 apply; well-founded turns; an execution of the whole program in which two downloads overlap |
| C114 | infinite executions of `Model/SystemNet` | each goroutine weakly fair (handlers at the job channel strongly): a download takes finitely many turns and is never stuck (C113), so it comes out; what all downloads of the execution lead to is fixed once and for all, and with these answers the execution is a fair one of `Model/System`, so C102 and C92 apply; a fair execution exists for every number of datagrams |
| C115 | executions of `Model/SystemNet` in which a given download is spared, and all executions with one worker | the downloads of such an execution are a schedule of `Model/Interleave` in which the download is spared, so C111 applies, and with one piece the spared form of C110 without the condition on its own reads; one worker: invariant (the memory is as the one download under way left it); then fairness as in C114; the two ends from one state are computed turn by turn |
| C116 | executions of `Model/SystemNet` in which nobody uses memory or pool while a given download is under way, and all executions with one worker | invariant: such a download is on the way of a call by itself (`run_fetchBodyR`), from a memory and pool fit for it (ownership as in C111, no channel over its size) with at most `W2` spare buffers (C112, C113); then C44 |

No property is "not applicable"; where truth lives in the runtime (data races inside Go maps, memory exhaustion, real time,
kernel sockets) the note in MANIFEST.json says what the model leaves out.
