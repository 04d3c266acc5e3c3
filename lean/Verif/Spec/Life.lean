import Verif.Model.ProgramLog
/-! # What the log of a whole run should look like (C100)

The records are written out here once more, independently of the functions of the model. -/
namespace P2P

/-- the records of one goroutine -/
def recsOf (g : Gor) (log : List (Gor × LogRec)) : List LogRec := (log.filter (fun x => x.1 = g)).map Prod.snd

/-- The records of one `BootStrap` call, and whether it returns: it announces the host, and then either the query goes out, or the host does not
resolve, or the socket refuses the query. -/
inductive BootLines (K : KEnv) (L : LifeEnv) : Bytes × Option UDPAddr → List LogRec → Bool → Prop where
  | sent (host : Bytes) (a : UDPAddr) (n : Nat) : BootLines K L (host, some a)
      [⟨b!"dht", .Info, b!"bootstrap dht...", some [(b!"host", lstr host)]⟩,
       ⟨b!"udp", .Info, b!">>> send Bytes", some [(b!"laddr", lstringer L.C.laddr), (b!"raddr", lstr (addrString K.env a)), (b!"length", lint n)]⟩,
       ⟨b!"server", .Info, b!">>>rpc sended", some [(b!"to", lstr (addrString K.env a)), (b!"len", lint n)]⟩] true
  | unresolved (host : Bytes) : BootLines K L (host, none)
      [⟨b!"dht", .Info, b!"bootstrap dht...", some [(b!"host", lstr host)]⟩,
       ⟨b!"dht", .Panic, b!"bootstrap resolve host err", some [(b!"host", lstr host), (b!"err", lerr (L.resolveErr host))]⟩] false
  | refused (host : Bytes) (a : UDPAddr) (e e' : Bytes) : BootLines K L (host, some a)
      [⟨b!"dht", .Info, b!"bootstrap dht...", some [(b!"host", lstr host)]⟩,
       ⟨b!"udp", .Error, b!">>> send udp err", some [(b!"laddr", lstringer L.C.laddr), (b!"err", lerr e)]⟩,
       ⟨b!"server", .Error, b!"send query packet err", some [(b!"to", lstr (addrString K.env a)), (b!"query", lstr b!"{}"), (b!"err", lerr e)]⟩,
       ⟨b!"dht", .Panic, b!"bootstrap findnode err", some [(b!"host", lstr host), (b!"err", lerr e')]⟩] false

/-- The records of the `BootStrap` calls for these hosts, one after the other, all of which return. -/
inductive BootsDone (K : KEnv) (L : LifeEnv) : List (Bytes × Option UDPAddr) → List LogRec → Prop where
  | nil : BootsDone K L [] []
  | snoc {hs l h l'} : BootsDone K L hs l → BootLines K L h l' true → BootsDone K L (hs ++ [h]) (l ++ l')

/-- how a run ends -/
inductive LifeEnd where
  /-- the panic of a `BootStrap` call -/
  | died
  /-- `main` returned, having run into the limit or not -/
  | ended (timeout : Bool)

/-- All records of the main goroutine of a run that ends. -/
inductive MainScript (K : KEnv) (L : LifeEnv) (hosts : List (Bytes × Option UDPAddr)) : LifeEnd → List LogRec → Prop where
  | died {hs h rest l l'} : hosts = hs ++ h :: rest → BootsDone K L hs l → BootLines K L h l' false → MainScript K L hosts .died (l ++ l')
  | ended {l sig} (timeout : Bool) : BootsDone K L hosts l → sig ∈ [b!"interrupt", b!"terminated"] →
      MainScript K L hosts (.ended timeout) (l ++
        [⟨b!"shutdown", .Trace, b!"blocking in main goroutinue...", none⟩,
         ⟨b!"shutdown", .Trace, b!"received shutdown signal", some [(b!"sig", lstr sig)]⟩,
         ⟨b!"shutdown", .Trace, b!"start cleaning...", none⟩,
         (if timeout then ⟨b!"shutdown", .Trace, b!"shutdown timeout, just ignore", some [(b!"duration", lstr b!"5s")]⟩
          else ⟨b!"shutdown", .Trace, b!"shutdown clean all", none⟩),
         ⟨b!"shutdown", .Trace, b!"shutdown finish...", none⟩])

/-- the first records of the goroutine of `Run` -/
def runLines : List LogRec :=
  [⟨b!"dht", .Info, b!"start run dht...", none⟩, ⟨b!"dht", .Info, b!"register middleware...", none⟩,
   ⟨b!"dht", .Info, b!"register request handler...", none⟩, ⟨b!"dht", .Info, b!"enter fetchTorrent loop...", none⟩,
   ⟨b!"dht", .Info, b!"enter listen loop...", none⟩,
   ⟨b!"workpool", .Trace, b!"workpool init finished", some [(b!"name", lstr b!"krpc-workerpool")]⟩]

/-- the record of a packet that the server takes -/
def takenLine (K : KEnv) (p : RecvPacket) : LogRec :=
  ⟨b!"server", .Info, b!"<<<rpc received", some [(b!"from", lstr (addrString K.env p.addr)), (b!"len", lint p.bytes.length)]⟩

/-- the record of a datagram that is read -/
def readLine (K : KEnv) (p : RecvPacket) : LogRec :=
  ⟨b!"udp", .Info, b!"<<< received Bytes", some [(b!"raddr", lstr (addrString K.env p.addr)), (b!"length", lint p.bytes.length)]⟩

/-- the record of a read that fails -/
def readErrLine (e : Bytes) : LogRec := ⟨b!"udp", .Error, b!"<<< receive udp err", some [(b!"err", lerr e)]⟩

/-- the records of the clean-up function -/
def closeLines (L : LifeEnv) : List LogRec :=
  [⟨b!"udp", .Trace, b!"conn closing...", some [(b!"laddr", lstringer L.C.laddr)]⟩, ⟨b!"server", .Info, b!"close udp conn", none⟩,
   ⟨b!"dht", .Info, b!"rpcserver closed...", none⟩]

end P2P
