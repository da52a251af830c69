import Verif.Common.Model
import Verif.Sys.Model
import Verif.Packet.Model
/-!
Model of package `nflog` (/repo/nflog/{nflog,sockets,helpers,types,constants}.go): log-group
configuration and the log reader.
-/
namespace Verif.NfLog
open Common Sys

/-- nflog/types.go:66-74 `NfPacket` with its embedded `IPLayer` and `Ports`, as handed to the
callback.  `AppPayload` is never set and `NflogHandle` always is the receiver; both are omitted.
`Prefix` is a Go string: bytes. -/
structure NfPacket where
  prefix' : List Byte
  payload : List Byte
  /-- the memory `Payload` is a window of -/
  payloadAt : Slice
  srcIP : List Byte
  dstIP : List Byte
  version : Byte
  protocol : Byte
  length : U16
  id : List Char
  srcPort : U16
  dstPort : U16
deriving DecidableEq, Repr

/-- `var m NfPacket` -/
def NfPacket.zero : NfPacket :=
  { prefix' := [], payload := [], payloadAt := Slice.nil, srcIP := [], dstIP := [], version := 0, protocol := 0, length := 0,
    id := [], srcPort := 0, dstPort := 0 }

/-- Application-visible events. -/
inductive LEv where
  /-- `go nflHandle.ReadLogs()` -/
  | spawnReader
  /-- the log callback `cb` was invoked -/
  | log (cb : Nat) (p : NfPacket)
  /-- the error callback `cb` was invoked with the text `kind` wrapped around `err` -/
  | error (cb : Nat) (kind : String) (err : Err)
deriving DecidableEq

/-- nflog/types.go:53-59 `SockHandles`; the local address always is {AF_NETLINK, pid 0, groups 0},
`rcvbufSize` is only reported.  Of `buf` only the size matters: `recv` shows exactly the bytes just
received into it. -/
structure Handle where
  fd : Nat
  bufLen : Nat
deriving DecidableEq, Repr

/-- nflog/types.go:15-23 `NfLog`; functions are opaque identities, `none` is nil.  `Groups`,
`CopyRange` are never used. -/
structure NfLog where
  callback : Option Nat
  errorCallback : Option Nat
  socket : Option Handle
  opened : Bool
deriving DecidableEq, Repr

/-- What surrounds the process: the host byte order and what an application callback does (given
everything that happened, the last event being its own invocation): it may change memory, make
system calls and use the handle, but it returns. -/
structure Env where
  e : Endian
  cbEffect : World LEv NfLog → World LEv NfLog

/-- State of the world. -/
abbrev W := World LEv NfLog
/-- Code running in it. -/
abbrev M := GoM W

/-- Read the package state. -/
def getL : M NfLog := fun w => .ok (w.st, w)
/-- Change the package state. -/
def modifyL (f : NfLog → NfLog) : M Unit := fun w => .ok ((), { w with st := f w.st })
/-- An application event. -/
def emit (a : LEv) : M Unit := fun w => .ok ((), w.log (.app a))
/-- Application code runs. -/
def runCallback (env : Env) : M Unit := fun w => .ok ((), env.cbEffect w)

/-- nflog/nflog.go:18-21 `NewNFLog` -/
def newNFLog : NfLog := { callback := none, errorCallback := none, socket := none, opened := false }

/-- nflog/nflog.go:52-76 `NFlogOpen`.  AF_NETLINK = 16, SOCK_RAW = 3, NETLINK_NETFILTER = 12,
SOL_NETLINK = 270, NETLINK_NO_ENOBUFS = 5. -/
def nflogOpen (K : Kernel LEv) : M (Except Err Unit) := do
  match ← socket K 16 3 12 with
  | .error n => pure (.error (.errno n))
  | .ok fd =>
    match ← bind K fd with
    | some n => pure (.error (.errno n))
    | none =>
      let _ ← setsockoptInt K fd 270 5 1
      modifyL fun l => { l with socket := some { fd := fd, bufLen := 0 }, opened := true }
      pure (.ok ())

/-- `syscall.NetlinkMessage` -/
structure NetlinkMessage where
  header : NlMsghdr
  data : List Byte
deriving DecidableEq

/-- nflog/sockets.go:48-55: the bytes `send` puts on the wire. -/
def wireBytes (e : Endian) (msg : NetlinkMessage) : Res (List Byte) := do
  let buf := zeros (16 + msg.data.length)
  let buf ← writeAt buf 0 (enc32 e msg.header.len)
  let buf ← writeAt buf 4 (enc16 e msg.header.type)
  let buf ← writeAt buf 6 (enc16 e msg.header.flags)
  let buf ← writeAt buf 8 (enc32 e msg.header.seq)
  let buf ← writeAt buf 12 (enc32 e msg.header.pid)
  writeAt buf 16 msg.data

/-- nflog/sockets.go:47-58 `send`: the buffer sent becomes the buffer to receive into. -/
def send (env : Env) (K : Kernel LEv) (sh : Handle) (msg : NetlinkMessage) : M (Option Err) := do
  let buf ← GoM.lift (wireBytes env.e msg)
  modifyL fun l => { l with socket := some { sh with bufLen := buf.length } }
  match ← sendto K sh.fd buf 0 with
  | some n => pure (some (.errno n))
  | none => pure none

/-- nflog/sockets.go:28-44: reading the reply `d`. -/
def readReply (e : Endian) (d : List Byte) : Res (Option Err) := do
  let (hdr, next, err) ← netlinkMessageToStruct e d
  match err, hdr with
  | some err, _ => .ok (some err)
  | none, none => .panic
  | none, some hdr =>
    if hdr.type = 2 then do
      let (_, code) ← netlinkErrMessagetoStruct e next
      if code ≠ 0 then .ok (some (.netlink code))
      else do
        let _ ← netlinkMessageToNfGenStruct next
        .ok none
    else do
      let _ ← netlinkMessageToNfGenStruct next
      .ok none

/-- nflog/sockets.go:20-45 `recv` -/
def recv (env : Env) (K : Kernel LEv) (fd bufLen : Nat) : M (Option Err) := do
  match ← recvfrom K fd bufLen 0 with
  | .error n => pure (some (.wrap "Recvfrom returned error %v" (.errno n)))
  | .ok d => GoM.lift (readReply env.e d)

/-- nflog/sockets.go:12-18 `query` (`len(sh.buf)` is what `send` made it) -/
def query (env : Env) (K : Kernel LEv) (sh : Handle) (msg : NetlinkMessage) : M (Option Err) := do
  match ← send env K sh msg with
  | some err => pure (some err)
  | none => recv env K sh.fd (16 + msg.data.length)

/-- nflog/sockets.go:72-74 `close` -/
def closeHandle (K : Kernel LEv) (sh : Handle) : M Unit := do
  let _ ← Sys.close K sh.fd
  pure ()

/-- nflog/helpers.go:20-27 `(*NflMsgConfigCommand).ToWireFormat`; `SizeofMsgConfigCommand` = 4. -/
def configCommandWire (command : Byte) : Res (List Byte) := writeAt (zeros 4) 0 [command]

/-- nflog/helpers.go:11-13 `(*NflMsgConfigCommand).Length`: sizeof{uint8} = 1. -/
def configCommandLength : U32 := 1

/-- nflog/helpers.go:30-37 `(*NflMsgConfigMode).ToWireFormat`; sizeof{uint32,uint8} = 8. -/
def configModeWire (copyRange : U32) (copyMode : Byte) : Res (List Byte) := do
  let buf := zeros 8
  let buf ← writeAt buf 0 (enc32 .big copyRange)
  writeAt buf 4 [copyMode]

/-- nflog/helpers.go:16-18 `(*NflMsgConfigMode).Length` -/
def configModeLength : U32 := 8

/-- nflog/helpers.go:40-42 `NfaAlign16` -/
def nfaAlign16 (v : U16) : U16 := (v + 3) &&& 0xFFFC

/-- nflog/nflog.go:81-99, 111-129, 146-164: a command message for group `g`.  Type 0x401 = NfnlNFLog,
flags 5 = REQUEST|ACK, family 2 = AF_INET, attribute 1 = NFULA_CFG_CMD. -/
def commandMsg (env : Env) (command : Byte) (g : U16) : Res NetlinkMessage := do
  let hdr := buildNlMsgHeader 0x401 5 0
  let (nfgen, hdr) := buildNfgenMsg 2 0 g hdr
  let (attr, hdr) := buildNfAttrMsg 1 hdr configCommandLength
  let a ← nfgen.toWireFormat
  let b ← attr.toWireFormat env.e
  let c ← configCommandWire command
  .ok { header := hdr, data := a ++ b ++ c }

/-- nflog/nflog.go:182-201: the copy-mode message for group `g`: family 0 = AF_UNSPEC, attribute 2 =
NFULA_CFG_MODE, mode 2 = NFULNL_COPY_PACKET. -/
def modeMsg (env : Env) (packetSize : U32) (g : U16) : Res NetlinkMessage := do
  let hdr := buildNlMsgHeader 0x401 5 0
  let (nfgen, hdr) := buildNfgenMsg 0 0 g hdr
  let (attr, hdr) := buildNfAttrMsg 2 hdr configModeLength
  let a ← nfgen.toWireFormat
  let b ← attr.toWireFormat env.e
  let c ← configModeWire packetSize 2
  .ok { header := hdr, data := a ++ b ++ c }

/-- nflog/nflog.go:101-105, 131-135 -/
def queryOrFail (env : Env) (K : Kernel LEv) (msg : NetlinkMessage) : M (Option Err) := do
  let l ← getL
  match l.socket with
  | some sh => query env K sh msg
  | none => pure (some (.msg "NFlogOpen was not called. No Socket open"))

/-- nflog/nflog.go:79-106 `NFlogUnbind`: command 4 = PF_UNBIND -/
def nflogUnbind (env : Env) (K : Kernel LEv) : M (Option Err) := do
  let msg ← GoM.lift (commandMsg env 4 0)
  queryOrFail env K msg

/-- nflog/nflog.go:109-136 `NFlogBind`: command 3 = PF_BIND -/
def nflogBind (env : Env) (K : Kernel LEv) : M (Option Err) := do
  let msg ← GoM.lift (commandMsg env 3 0)
  queryOrFail env K msg

/-- nflog/nflog.go:166-171, 203-208: query unless there is no socket -/
def queryOrSkip (env : Env) (K : Kernel LEv) (msg : NetlinkMessage) : M (Option Err) := do
  let l ← getL
  match l.socket with
  | some sh => query env K sh msg
  | none => pure none

/-- nflog/nflog.go:145-174, 181-211: `for _, g := range groups`, one message each, stopping at the
first error. -/
def forGroups (env : Env) (K : Kernel LEv) (mk : U16 → Res NetlinkMessage) : List U16 → M (Option Err)
  | [] => pure none
  | g :: gs => do
    let msg ← GoM.lift (mk g)
    match ← queryOrSkip env K msg with
    | some err => pure (some err)
    | none => forGroups env K mk gs

/-- nflog/nflog.go:140-175 `NFlogBindGroup`: command 1 = BIND -/
def nflogBindGroup (env : Env) (K : Kernel LEv) (groups : List U16) (callback errorCallback : Option Nat) :
    M (Option Err) := do
  modifyL fun l => { l with callback := callback, errorCallback := errorCallback }
  forGroups env K (commandMsg env 1) groups

/-- nflog/nflog.go:179-212 `NFlogSetMode` -/
def nflogSetMode (env : Env) (K : Kernel LEv) (groups : List U16) (packetSize : U32) : M (Option Err) :=
  forGroups env K (modeMsg env packetSize) groups

/-- nflog/nflog.go:335-339 `NFlogClose` -/
def nflogClose (K : Kernel LEv) : M Unit := do
  let l ← getL
  match l.socket with
  | some sh => closeHandle K sh
  | none => pure ()

/-- nflog/nflog.go:329-332 `GetNFloghandle`: the interface value stored by NFlogOpen; `true` = the handle
itself, `false` = nil. -/
def getNFloghandle (l : NfLog) : Bool := l.opened

/-- nflog/nflog.go:27: `nflHandle := NewNFLog()` -/
def freshLog : M Unit := fun w => .ok ((), { w with st := newNFLog })

/-- nflog/nflog.go:26-46 `BindAndListenForLogs`: `none` = (handle, nil), `some err` = (nil, err); the
handle is the package state of the resulting world. -/
def bindAndListen (env : Env) (K : Kernel LEv) (groups : List U16) (packetSize : U32)
    (callback errorCallback : Option Nat) : M (Option Err) := do
  freshLog
  match ← nflogOpen K with
  | .error err => pure (some (.wrap "Error opening NFLog handle: %v " err))
  | .ok () =>
    match ← nflogBindGroup env K groups callback errorCallback with
    | some err =>
      nflogClose K
      pure (some (.wrap "Error binding to nflog group: %v " err))
    | none =>
      match ← nflogSetMode env K groups packetSize with
      | some err =>
        nflogClose K
        pure (some (.wrap "Unable to set copy packet mode: %v " err))
      | none =>
        emit .spawnReader
        pure none

/-! ### Reading logs -/

/-- `payload := make([]byte, n); reader.Read(payload)`: what was left, then zeros. -/
def readPayload (n : Nat) (rest : List Byte) : List Byte :=
  rest.take n ++ zeros (n - (rest.take n).length)

/-- nflog/nflog.go:298-307: copy what `packet.New` found into `m`; `IPVersion` = 4 whatever the
packet's version. -/
def fillFrom (m : NfPacket) : Option Packet.Packet → NfPacket
  | none => m
  | some p =>
    { m with
      srcIP := p.SourceAddress, dstIP := p.DestinationAddress, version := 4, protocol := p.IPProto,
      length := p.IPTotalLen, srcPort := p.SourcePort, dstPort := p.DestPort, id := p.ID }

/-- nflog/nflog.go:309-318: hand the packet to the callback -/
def invoke (env : Env) (m : NfPacket) (w : W) : Res W :=
  match w.st.callback with
  | none => .panic
  | some cb => .ok (env.cbEffect (w.log (.app (.log cb m))))

/-- nflog/nflog.go:293-318: parse the payload (its own memory) and deliver it; an error of
`packet.New` is returned. -/
def deliver (env : Env) (payload : List Byte) (payloadLen : U16) (m : NfPacket) (w : W) :
    Res (Except Err NfPacket × W) := do
  let s := (w.heap.mk' payload).1
  let h := (w.heap.mk' payload).2
  let (p, err) ← Packet.New h Packet.PacketTypeNetwork s [] false
  match err with
  | some err => .ok (.error err, { w with heap := h })
  | none => do
    let m := fillFrom m p
    let shown ← s.to payloadLen.toNat
    let m := { m with payload := h.bytes shown, payloadAt := shown }
    let w ← invoke env m { w with heap := h }
    .ok (.ok m, w)

/-- The bytes not yet read, the packet being assembled, the world. -/
structure TlvState where
  rest : List Byte
  m : NfPacket
  w : W

/-- nflog/nflog.go:286-322: one attribute whose header was read; `rest` is what follows it.
NFULA_PREFIX = 10, NFULA_PAYLOAD = 9. -/
def attrStep (env : Env) (len type : U16) (rest : List Byte) (m : NfPacket) (w : W) :
    Res (Step TlvState (Option Err × W)) :=
  let payloadLen : U16 := len - 4
  let n := (nfaAlign16 payloadLen).toNat
  if type = 10 then do
    let p ← slice (readPayload n rest) 0 (payloadLen - 1).toNat
    .ok (.next ⟨rest.drop n, { m with prefix' := p }, w⟩)
  else if type = 9 then do
    let (r, w) ← deliver env (readPayload n rest) payloadLen m w
    match r with
    | .error err => .ok (.done (some err, w))
    | .ok m => .ok (.next ⟨rest.drop n, m, w⟩)
  else .ok (.next ⟨rest.drop n, m, w⟩)

/-- nflog/nflog.go:277-323: one iteration of the attribute loop.  Headers are read in little-endian
order whatever the host. -/
def tlvBody (env : Env) (s : TlvState) : Res (Step TlvState (Option Err × W)) :=
  if s.rest.length = 0 then .ok (.done (none, s.w))
  else if s.rest.length < 4 then .ok (.done (some (.msg "unexpected EOF"), s.w))
  else do
    let len ← dec16 .little s.rest
    let type ← dec16 .little (s.rest.drop 2)
    attrStep env len type (s.rest.drop 4) s.m s.w

/-- nflog/nflog.go:268-326 `parsePacket`: the 4-byte header is read (or whatever is there is
consumed) and ignored. -/
noncomputable def parsePacket (env : Env) (buffer : List Byte) (w : W) : Res (Option Err × W) :=
  loop (tlvBody env) ⟨buffer.drop 4, NfPacket.zero, w⟩

/-- nflog/nflog.go:246-249: length and type of the header; all zero when fewer than 16 bytes are
left. -/
def readHeader (buffer : List Byte) : Res (U32 × U16) :=
  if buffer.length < 16 then .ok (0, 0)
  else do
    let len ← dec32 .little buffer
    let type ← dec16 .little (buffer.drop 4)
    .ok (len, type)

/-- nflog/nflog.go:255-260: a log message is parsed, without its last byte. -/
noncomputable def parseMessage (env : Env) (msgLen : U32) (type : U16) (buffer : List Byte) (w : W) :
    Res (Option Err × W) :=
  if type = 0x400 then do
    let body ← slice buffer 16 (msgLen - 1).toNat
    parsePacket env body w
  else .ok (none, w)

/-- nflog/nflog.go:243-262: one iteration of `parseLog` -/
noncomputable def logBody (env : Env) (s : List Byte × W) : Res (Step (List Byte × W) (Option Err × W)) :=
  if s.1.length = 0 then .ok (.done (none, s.2))
  else do
    let (msgLen, type) ← readHeader s.1
    if msgLen > BitVec.ofNat 32 s.1.length then .ok (.done (some (.msg "Message was truncated"), s.2))
    else do
      let (r, w) ← parseMessage env msgLen type s.1 s.2
      match r with
      | some err => .ok (.done (some (.wrap "Failed to parse NFPacket: %v" err), w))
      | none => do
        let buffer ← sliceFrom s.1 msgLen.toNat
        .ok (.next (buffer, w))

/-- nflog/nflog.go:241-265 `parseLog` -/
noncomputable def parseLog (env : Env) (buffer : List Byte) (w : W) : Res (Option Err × W) :=
  loop (logBody env) (buffer, w)

/-- nflog/nflog.go:223-225, 233-235: report to the error callback if there is one -/
def report (env : Env) (kind : String) (err : Err) : M Unit := fun w =>
  match w.st.errorCallback with
  | none => .ok ((), w)
  | some cb => .ok ((), env.cbEffect (w.log (.app (.error cb kind err))))

/-- nflog/nflog.go:231-236: a datagram was received -/
noncomputable def handleDatagram (env : Env) (d : List Byte) : M Bool := do
  match ← parseLog env d with
  | some err =>
    report env "Parse error" err
    pure false
  | none => pure false

/-- nflog/nflog.go:222-230: receiving failed; ENOBUFS = 105.  The deferred close runs on return. -/
def handleFailure (env : Env) (K : Kernel LEv) (n : Nat) : M Bool := do
  report env "Netlink error" (.errno n)
  if n = 105 then pure false
  else do
    nflogClose K
    pure true

/-- nflog/nflog.go:220-237: one iteration of `ReadLogs`; `true` = the function returned. -/
noncomputable def readIter (env : Env) (K : Kernel LEv) : M Bool := do
  let l ← getL
  match l.socket with
  | none => GoM.panic
  | some sh =>
    match ← recvfrom K sh.fd 65536 0 with
    | .error n => handleFailure env K n
    | .ok d => handleDatagram env d

/-- nflog/nflog.go:215-238 `ReadLogs`, observed for at most `n` iterations: `true` if it returned by
then. -/
noncomputable def readLogs (env : Env) (K : Kernel LEv) : Nat → M Bool
  | 0 => pure false
  | n + 1 => do
    if ← readIter env K then pure true else readLogs env K n

end Verif.NfLog
