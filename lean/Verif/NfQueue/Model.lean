import Verif.Common.Model
import Verif.Sys.Model
/-!
Model of package `nfqueue` (/repo/nfqueue): queue configuration, receive loop, verdicts.
-/
namespace Verif.NfQueue
open Common Sys

/-- Application-visible events of an nfqueue. -/
inductive QEv where
  /-- `go queuingHandle.ProcessPackets(ctx)` -/
  | spawnReader
  /-- the packet callback `cb` was invoked with this buffer contents, mark, id and private data -/
  | packet (cb : Nat) (buffer : List Byte) (mark id : Nat) (priv : Nat)
  /-- the error callback `cb` was invoked with this error and generic header -/
  | error (cb : Nat) (err : Err) (nfgen : Option NfqGenMsg)
deriving DecidableEq

/-- `NfqSockHandle` (nfqueue/types.go:83-89); the local address always is
{AF_NETLINK, pid 0, groups 0}; `rcvbufSize` is only reported. -/
structure Handle where
  fd : Nat
  buf : Slice
deriving DecidableEq, Repr

/-- A Go channel of packets (`chan *NFPacket`): its capacity, what was sent on it and not yet received, and whether it was closed. -/
structure Chan where
  cap : Nat
  pending : List (List Byte)
  closed : Bool

/-- `NfQueue` (nfqueue/nfqueue.go:52-67).  Function values and private data are represented by
opaque identities; `none` is a nil function. -/
structure NfQueue where
  subscribed : U32
  queueNum : U16
  callback : Option Nat
  errorCallback : Option Nat
  privateData : Nat
  handle : Option Handle
  notification : Chan
  buf : Slice
  attrs : AttrMap
  hdrSlice : Slice
  accepted : U64
  dropped : U64
  processed : U64

/-- What surrounds the process: host byte order, growth of `append`, the bytes that happen to lie
behind an allocated array (what the kernel reads if told to read too far), when the context is
cancelled, and what an application callback does (given everything that happened, the last event
being its own invocation): it may change memory, make system calls and use the queue, but returns. -/
structure Env where
  e : Endian
  grow : Nat → Nat
  behind : Nat → Nat → Byte
  ctxDone : List (Ev QEv) → Bool
  cbEffect : World QEv NfQueue → World QEv NfQueue

/-- State of the world. -/
abbrev W := World QEv NfQueue
/-- Code running in it. -/
abbrev M := GoM W

/-- Read the package state. -/
def getQ : M NfQueue := fun w => .ok (w.st, w)
/-- Change the package state. -/
def modifyQ (f : NfQueue → NfQueue) : M Unit := fun w => .ok ((), { w with st := f w.st })
/-- The bytes a slice shows now. -/
def readBytes (s : Slice) : M (List Byte) := fun w => .ok (w.heap.bytes s, w)
/-- An application event. -/
def emit (a : QEv) : M Unit := fun w => .ok ((), w.log (.app a))

/-- common/constants.go `NfnlBuffSize` = 75*1024. -/
def nfnlBuffSize : Nat := 75 * 1024

/-- nfqueue/nfqueue.go:72-88 `NewNFQueue`: makes the notification channel (capacity 100), allocates the receive buffer, one buffer per interesting
attribute (types 1, 3 and 10) and the scratch header (16 + 4 + 12 + 8 = 40 bytes). -/
def newNFQueue (h : Heap) : NfQueue × Heap :=
  let (buf, h) := h.mk' (zeros nfnlBuffSize)
  let hdrLen := 16 + 4 + (nfaLength 8).toNat + (nfaLength 4).toNat
  let (hdrSlice, h) := h.mk' (zeros hdrLen)
  let (a1, h) := h.mk' (zeros nfnlBuffSize)
  let (a3, h) := h.mk' (zeros nfnlBuffSize)
  let (a10, h) := h.mk' (zeros nfnlBuffSize)
  ({ subscribed := 0, queueNum := 0, callback := none, errorCallback := none, privateData := 0
     handle := none, notification := ⟨100, [], false⟩, buf := buf
     attrs := fun k => if k = 1 then some a1 else if k = 3 then some a3
       else if k = 10 then some a10 else none
     hdrSlice := hdrSlice, accepted := 0, dropped := 0, processed := 0 }, h)

/-- nfqueue/nfqueue.go:531-533 `GetNotificationChannel`. -/
def getNotificationChannel : M Chan := do
  let q ← getQ
  pure q.notification

/-- nfqueue/nfqueue.go:133-162 `NfqOpen`.  AF_NETLINK = 16, SOCK_RAW = 3, NETLINK_NETFILTER = 12,
SOL_NETLINK = 270, NETLINK_NO_ENOBUFS = 5, SOL_SOCKET = 1, SO_RCVBUFFORCE = 33, SO_SNDBUFFORCE = 32,
`0x1 << NFQUEUESUBSYSID` = 8. -/
def nfqOpen (K : Kernel QEv) : M (Except Err Unit) := do
  let q ← getQ
  modifyQ fun q => { q with subscribed := q.subscribed ||| 8 }
  match ← socket K 16 3 12 with
  | .error n => pure (.error (.errno n))
  | .ok fd =>
    match ← bind K fd with
    | some n => pure (.error (.errno n))
    | none =>
      let sockbuf := 500 * nfnlBuffSize
      let _ ← setsockoptInt K fd 270 5 1
      let _ ← setsockoptInt K fd 1 33 sockbuf
      let _ ← setsockoptInt K fd 1 32 sockbuf
      let _ ← rawLinger K fd
      modifyQ fun q' => { q' with handle := some { fd := fd, buf := q.buf } }
      pure (.ok ())

/-- `syscall.NetlinkMessage` -/
structure NetlinkMessage where
  header : NlMsghdr
  data : List Byte
deriving DecidableEq

/-- nfqueue/nfqueue.go:217-224: the bytes `send` puts on the wire. -/
def wireBytes (e : Endian) (msg : NetlinkMessage) : Res (List Byte) := do
  let buf := zeros (16 + msg.data.length)
  let buf ← writeAt buf 0 (enc32 e msg.header.len)
  let buf ← writeAt buf 4 (enc16 e msg.header.type)
  let buf ← writeAt buf 6 (enc16 e msg.header.flags)
  let buf ← writeAt buf 8 (enc32 e msg.header.seq)
  let buf ← writeAt buf 12 (enc32 e msg.header.pid)
  writeAt buf 16 msg.data

/-- nfqueue/nfqueue.go:216-227 `send`. -/
def Handle.send (env : Env) (K : Kernel QEv) (qh : Handle) (msg : NetlinkMessage) : M (Option Err) := do
  let buf ← GoM.lift (wireBytes env.e msg)
  match ← sendto K qh.fd buf 0 with
  | some n => pure (some (.errno n))
  | none => pure none

/-- nfqueue/nfqueue.go:195-212 `recv`.  Note `buf[:n+1]`, and that a nil header is dereferenced. -/
def Handle.recv (env : Env) (K : Kernel QEv) (qh : Handle) : M (Option Err) := do
  let buf := qh.buf
  match ← recvInto K qh.fd buf 0 with
  | .error n => pure (some (.wrap "Recvfrom returned error %v" (.errno n)))
  | .ok n =>
    let view ← GoM.lift (buf.to (n + 1))
    let bytes ← readBytes view
    let (hdr, next, _) ← GoM.lift (netlinkMessageToStruct env.e bytes)
    match hdr with
    | none => GoM.panic
    | some hdr =>
      if hdr.type = 2 then
        let (_, code) ← GoM.lift (netlinkErrMessagetoStruct env.e next)
        if code ≠ 0 then pure (some (.netlink code)) else pure none
      else pure none

/-- nfqueue/nfqueue.go:167-174 `query`. -/
def Handle.query (env : Env) (K : Kernel QEv) (qh : Handle) (msg : NetlinkMessage) : M (Option Err) := do
  match ← qh.send env K msg with
  | some err => pure (some err)
  | none => qh.recv env K

/-- nfqueue/nfqueue.go:189-191 `close`. -/
def Handle.close (K : Kernel QEv) (qh : Handle) : M Unit := do
  let _ ← Sys.close K qh.fd
  pure ()

/-- nfqueue/helpers.go:69-76 `(*NfqMsgConfigCommand).ToWireFormat`. -/
def configCommandWire (command pad : Byte) (pf : U16) : Res (List Byte) := do
  let buf := zeros 4
  let buf ← writeAt buf 0 [command]
  let buf ← writeAt buf 1 [pad]
  writeAt buf 2 (enc16 .big pf)

/-- nfqueue/helpers.go:79-81 `(*NfqMsgConfigCommand).Length`: sizeof{uint8,uint8,uint16} = 4. -/
def configCommandLength : U32 := 4

/-- nfqueue/helpers.go:84-89 `(*NfqMsgConfigParams).ToWireFormat`; sizeof{uint32,uint8} = 8. -/
def configParamsWire (copyRange : U32) (copyMode : Byte) : Res (List Byte) := do
  let buf := zeros 8
  let buf ← writeAt buf 0 (enc32 .big copyRange)
  writeAt buf 4 [copyMode]

/-- nfqueue/helpers.go:92-94 `(*NfqMsgConfigParams).Length`. -/
def configParamsLength : U32 := 8

/-- nfqueue/helpers.go:97-101 `(*NfqMsgConfigQueueLen).ToWireFormat`. -/
def configQueueLenWire (queueLen : U32) : Res (List Byte) := writeAt (zeros 4) 0 (enc32 .big queueLen)

/-- nfqueue/helpers.go:104-106 `(*NfqMsgConfigQueueLen).Length`. -/
def configQueueLenLength : U32 := 4

/-- The common tail of the configuration calls, e.g. nfqueue/nfqueue.go:253-256. -/
def queryOrFail (env : Env) (K : Kernel QEv) (msg : NetlinkMessage) : M (Option Err) := do
  let q ← getQ
  match q.handle with
  | some qh => qh.query env K msg
  | none => pure (some (.msg "NfqOpen was not called. No Socket open"))

/-- nfqueue/nfqueue.go:230-258 `UnbindPf`. Type 0x302 = NfqnlMsgConfig, flags 5 = REQUEST|ACK,
family 0 = AF_UNSPEC, pf 2 = AF_INET, attribute 1 = NfqaCfgCmd, command 4. -/
def unbindPf (env : Env) (K : Kernel QEv) : M (Option Err) := do
  let hdr := buildNlMsgHeader 0x302 5 0
  let (nfgen, hdr) := buildNfgenMsg 0 0 0 hdr
  let (attr, hdr) := buildNfAttrMsg 1 hdr configCommandLength
  let a ← GoM.lift nfgen.toWireFormat
  let b ← GoM.lift (attr.toWireFormat env.e)
  let c ← GoM.lift (configCommandWire 4 116 2)
  queryOrFail env K { header := hdr, data := a ++ b ++ c }

/-- nfqueue/nfqueue.go:507-528 `BindPf`: command 3. -/
def bindPf (env : Env) (K : Kernel QEv) : M (Option Err) := do
  let hdr := buildNlMsgHeader 0x302 5 0
  let (nfgen, hdr) := buildNfgenMsg 0 0 0 hdr
  let (attr, hdr) := buildNfAttrMsg 1 hdr configCommandLength
  let a ← GoM.lift nfgen.toWireFormat
  let b ← GoM.lift (attr.toWireFormat env.e)
  let c ← GoM.lift (configCommandWire 3 0 2)
  queryOrFail env K { header := hdr, data := a ++ b ++ c }

/-- nfqueue/nfqueue.go:264-289 `CreateQueue`: command 1 for queue `num`; records number, callbacks
and private data first. -/
def createQueue (env : Env) (K : Kernel QEv) (num : U16) (callback errorCallback : Option Nat)
    (privateData : Nat) : M (Option Err) := do
  modifyQ fun q => { q with queueNum := num, callback := callback, errorCallback := errorCallback,
                            privateData := privateData }
  let hdr := buildNlMsgHeader 0x302 5 0
  let (nfgen, hdr) := buildNfgenMsg 0 0 num hdr
  let (attr, hdr) := buildNfAttrMsg 1 hdr configCommandLength
  let a ← GoM.lift nfgen.toWireFormat
  let b ← GoM.lift (attr.toWireFormat env.e)
  let c ← GoM.lift (configCommandWire 1 0 0)
  queryOrFail env K { header := hdr, data := a ++ b ++ c }

/-- nfqueue/nfqueue.go:295-315 `NfqSetMode`; `mode` is a Go int, converted with `uint8(mode)`;
attribute 2 = NfqaCfgParams. -/
def nfqSetMode (env : Env) (K : Kernel QEv) (mode : U64) (packetSize : U32) : M (Option Err) := do
  let q ← getQ
  let hdr := buildNlMsgHeader 0x302 5 0
  let (nfgen, hdr) := buildNfgenMsg 0 0 q.queueNum hdr
  let (attr, hdr) := buildNfAttrMsg 2 hdr configParamsLength
  let a ← GoM.lift nfgen.toWireFormat
  let b ← GoM.lift (attr.toWireFormat env.e)
  let c ← GoM.lift (configParamsWire packetSize (mode.setWidth 8))
  queryOrFail env K { header := hdr, data := a ++ b ++ c }

/-- nfqueue/nfqueue.go:320-339 `NfqSetQueueMaxLen`; attribute 3. -/
def nfqSetQueueMaxLen (env : Env) (K : Kernel QEv) (queuelen : U32) : M (Option Err) := do
  let q ← getQ
  let hdr := buildNlMsgHeader 0x302 5 0
  let (nfgen, hdr) := buildNfgenMsg 0 0 q.queueNum hdr
  let (attr, hdr) := buildNfAttrMsg 3 hdr configQueueLenLength
  let a ← GoM.lift nfgen.toWireFormat
  let b ← GoM.lift (attr.toWireFormat env.e)
  let c ← GoM.lift (configQueueLenWire queuelen)
  queryOrFail env K { header := hdr, data := a ++ b ++ c }

/-- nfqueue/nfqueue.go:571-591 `NfqDestroyQueue`: command 2. -/
def nfqDestroyQueue (env : Env) (K : Kernel QEv) : M (Option Err) := do
  let q ← getQ
  let hdr := buildNlMsgHeader 0x302 5 0
  let (nfgen, hdr) := buildNfgenMsg 0 0 q.queueNum hdr
  let (attr, hdr) := buildNfAttrMsg 1 hdr configCommandLength
  let a ← GoM.lift nfgen.toWireFormat
  let b ← GoM.lift (attr.toWireFormat env.e)
  let c ← GoM.lift (configCommandWire 2 0 0)
  queryOrFail env K { header := hdr, data := a ++ b ++ c }

/-- nfqueue/nfqueue.go:554-559 `NfqClose`. -/
def nfqClose (K : Kernel QEv) : M Unit := do
  let q ← getQ
  match q.handle with
  | some qh => qh.close K
  | none => pure ()

/-- nfqueue/nfqueue.go:562-568 `StopQueue`. -/
def stopQueue (env : Env) (K : Kernel QEv) : M (Option Err) := do
  match ← nfqDestroyQueue env K with
  | some err => pure (some err)
  | none =>
    let q ← getQ
    match q.handle with
    | some qh => do
      qh.close K
      pure none
    | none => GoM.panic

/-- nfqueue/nfqueue.go:96: `queuingHandle := NewNFQueue()`. -/
def freshQueue : M Unit := fun w =>
  .ok ((), { w with st := (newNFQueue w.heap).1, heap := (newNFQueue w.heap).2 })

/-- nfqueue/nfqueue.go:95-127 `CreateAndStartNfQueue`, `none` = (handle, nil), `some err` =
(nil, err). The handle is the package state of the resulting world. -/
def createAndStart (env : Env) (K : Kernel QEv) (queueID : U16) (maxPacketsInQueue packetSize : U32)
    (callback errorCallback : Option Nat) (privateData : Nat) : M (Option Err) := do
  freshQueue
  match ← nfqOpen K with
  | .error err => pure (some (.wrap "Error opening NFQueue handle: %v " err))
  | .ok () =>
    match ← unbindPf env K with
    | some err =>
      nfqClose K
      pure (some (.wrap "Error unbinding existing NFQ handler from AfInet protocol family: %v " err))
    | none =>
      match ← bindPf env K with
      | some err =>
        nfqClose K
        pure (some (.wrap "Error binding to AfInet protocol family: %v " err))
      | none =>
        match ← createQueue env K queueID callback errorCallback privateData with
        | some err =>
          nfqClose K
          pure (some (.wrap "Error binding to queue: %v " err))
        | none =>
          match ← nfqSetMode env K 2 packetSize with
          | some err =>
            let _ ← nfqDestroyQueue env K
            nfqClose K
            pure (some (.wrap "Unable to set packets copy mode: %v " err))
          | none =>
            match ← nfqSetQueueMaxLen env K maxPacketsInQueue with
            | some err =>
              let _ ← nfqDestroyQueue env K
              nfqClose K
              pure (some (.wrap "Unable to set max packets in queue: %v " err))
            | none =>
              emit .spawnReader
              pure none

/-! ### Verdicts -/

/-- A `syscall.Iovec`: where the kernel reads, and how many bytes. -/
structure Iov where
  arr : Nat
  off : Nat
  len : Nat
deriving DecidableEq, Repr

/-- What the kernel reads for one iovec: the array from the base address on and, when the length
exceeds it, whatever lies behind the array. -/
def Iov.read (env : Env) (h : Heap) (v : Iov) : List Byte :=
  let b := ((h.arrayOf v.arr).drop v.off).take v.len
  b ++ (List.range (v.len - b.length)).map (env.behind v.arr)

/-- nfqueue/nfqueue.go:536-551 `sendmsg` (the result is only printed). -/
def sendmsg (env : Env) (K : Kernel QEv) (fd : Nat) (iovecs : List Iov) : M Unit := fun w =>
  match syscallSendmsg K fd (iovecs.flatMap (Iov.read env w.heap)) w with
  | .ok (_, w') => .ok ((), w')
  | .panic => .panic
  | .diverge => .diverge

/-- Allocate a fresh slice with these contents. -/
def allocM (bs : List Byte) : M Slice := fun w =>
  let (s, h) := w.heap.mk' bs
  .ok (s, { w with heap := h })

/-- `append(s, bs...)` -/
def appendM (env : Env) (s : Slice) (bs : List Byte) : M Slice := fun w =>
  let (s', h) := w.heap.append env.grow s bs
  .ok (s', { w with heap := h })

/-- nfqueue/nfqueue.go:371-374 and 425-428: pad the packet to a multiple of four, in place when the
slice has room. -/
def padPacket (env : Env) (packet : Slice) (padLen : Nat) : M Slice :=
  if padLen > 0 then appendM env packet (zeros padLen) else pure packet

/-- `&s[0]` with length `n`: panics on an empty slice. -/
def baseOf (s : Slice) (n : Nat) : M Iov :=
  if s.len = 0 then GoM.panic else pure { arr := s.arr, off := s.off, len := n }

/-- nfqueue/helpers.go:31-36 `(*NfqMsgVerdictHdr).ToWireFormat`. -/
def verdictHdrWire (e : Endian) (verdict id : U32) : Res (List Byte) := do
  let buf := zeros 8
  let buf ← writeAt buf 0 (enc32 .big verdict)
  writeAt buf 4 (enc32 e id)

/-- nfqueue/helpers.go:39-43 `(*NfqMsgVerdictHdr).ToWireFormatBuf`; `Length()` is 8. -/
def verdictHdrWireBuf (e : Endian) (verdict id : U32) (buf : List Byte) : Res (List Byte × Nat) := do
  let buf ← writeAt buf 0 (enc32 .big verdict)
  let buf ← writeAt buf 4 (enc32 e id)
  pure (buf, 8)

/-- nfqueue/helpers.go:58-61 `(*NfqMsgMarkHdr).ToWireFormatBuf`; `Length()` is 4. -/
def markHdrWireBuf (mark : U32) (buf : List Byte) : Res (List Byte × Nat) := do
  let buf ← writeAt buf 0 (enc32 .big mark)
  pure (buf, 4)

/-- nfqueue/nfqueue.go:342-383 `SetVerdict`.  The argument `queueNum` is ignored by the code, which
uses the queue's own number.  Type 0x301 = NfqnlMsgVerdict, flags 1 = REQUEST, attribute 2 =
NfqaVerdictHdr, attribute 10 = NfqaPayload. -/
def setVerdict (env : Env) (K : Kernel QEv) (_queueNum verdict packetLen packetID : U32)
    (packet : Slice) : M Unit := do
  if verdict = 1 then modifyQ fun q => { q with accepted := q.accepted + 1 }
  else modifyQ fun q => { q with dropped := q.dropped + 1 }
  let q ← getQ
  let hdr := buildNlMsgHeader 0x301 1 0
  let (nfgen, hdr) := buildNfgenMsg 0 0 q.queueNum hdr
  let (verdicthdr, hdr) := buildNfAttrMsg 2 hdr 8
  let iovecLen := hdr.len
  let payloadnfattr : NfAttr := { nfaLen := nfaLength (packetLen.setWidth 16), nfaType := 10 }
  let payloadnfattrbuf ← GoM.lift (payloadnfattr.toWireFormat env.e)
  let hdr := { hdr with len := hdr.len + payloadnfattr.nfaLen.setWidth 32 }
  let b0 ← GoM.lift (serializeNlMsgHdr env.e hdr)
  let b1 ← GoM.lift nfgen.toWireFormat
  let b2 ← GoM.lift (verdicthdr.toWireFormat env.e)
  let b3 ← GoM.lift (verdictHdrWire env.e verdict packetID)
  let hs ← allocM (b0 ++ b1 ++ b2 ++ b3)
  let v0 ← baseOf hs iovecLen.toNat
  let ps ← allocM payloadnfattrbuf
  let v1 ← baseOf ps payloadnfattrbuf.length
  let padLen := (nfaAlign (packetLen.setWidth 16) - packetLen.setWidth 16).toNat
  let packet ← padPacket env packet padLen
  let v2 ← baseOf packet (nfaAlign (packetLen.setWidth 16)).toNat
  match q.handle with
  | none => GoM.panic
  | some qh => sendmsg env K qh.fd [v0, v1, v2]

/-- Overwrite the front of a slice. -/
def putBytes (t : Slice) (bs : List Byte) : M Unit := fun w =>
  .ok ((), { w with heap := w.heap.write t.arr t.off bs })

/-- Run a function that fills a buffer on the bytes of `s` from `i` on (`f(s[i:])`). -/
def fillFrom (s : Slice) (i : Nat) (f : List Byte → Res (List Byte × Nat)) : M Nat := do
  let t ← GoM.lift (s.from' i)
  let bytes ← readBytes t
  let (bytes', n) ← GoM.lift (f bytes)
  putBytes t bytes'
  pure n

/-- nfqueue/nfqueue.go:386-439 `SetVerdict2`.  Attribute 3 = NfqaMark. -/
def setVerdict2 (env : Env) (K : Kernel QEv) (_queueNum verdict mark packetLen packetID : U32)
    (packet : Slice) : M Unit := do
  let q ← getQ
  let hdr := buildNlMsgHeader 0x301 1 0
  let (nfgen, hdr) := buildNfgenMsg 0 0 q.queueNum hdr
  let (verdicthdr, hdr) := buildNfAttrMsg 2 hdr 8
  let (markhdr, hdr) := buildNfAttrMsg 3 hdr 4
  let iovecLen := hdr.len
  let payloadnfattr : NfAttr := { nfaLen := packetLen.setWidth 16 + 4, nfaType := 10 }
  let hdrSlice := q.hdrSlice
  let payloadnfattrbuf ← GoM.lift (payloadnfattr.toWireFormat env.e)
  let hdr := { hdr with len := hdr.len + payloadnfattr.nfaLen.setWidth 32 }
  let padLen := (nfaAlign (packetLen.setWidth 16) - packetLen.setWidth 16).toNat
  let copyIndex ← fillFrom hdrSlice 0 (serializeNlMsgHdrBuf env.e hdr)
  let n ← fillFrom hdrSlice copyIndex nfgen.toWireFormatBuf
  let copyIndex := copyIndex + n
  let n ← fillFrom hdrSlice copyIndex (verdicthdr.toWireFormatBuf env.e)
  let copyIndex := copyIndex + n
  let n ← fillFrom hdrSlice copyIndex (verdictHdrWireBuf env.e verdict packetID)
  let copyIndex := copyIndex + n
  let n ← fillFrom hdrSlice copyIndex (markhdr.toWireFormatBuf env.e)
  let copyIndex := copyIndex + n
  let _ ← fillFrom hdrSlice copyIndex (markHdrWireBuf mark)
  let v0 ← baseOf hdrSlice iovecLen.toNat
  let ps ← allocM payloadnfattrbuf
  let v1 ← baseOf ps payloadnfattrbuf.length
  let packet ← padPacket env packet padLen
  let v2 ← baseOf packet packet.len
  match q.handle with
  | none => GoM.panic
  | some qh => sendmsg env K qh.fd [v0, v1, v2]

/-! ### Receiving -/

/-- nfqueue/nfqueue.go:467: parse the attributes into the queue's persistent map. -/
noncomputable def parseAttrs (env : Env) (buf : Slice) : M (AttrMap × Option Err) := fun w =>
  match netlinkMessageToNfAttrStruct env.e w.heap buf w.st.attrs with
  | .ok (m', _, err) => .ok ((m', err), { w with st := { w.st with attrs := m' } })
  | .panic => .panic
  | .diverge => .diverge

/-- nfqueue/nfqueue.go:450-470, `Recv` after the receive: the first `n` bytes of the buffer are decoded: generic
header, attribute map, error. A nil header is dereferenced before its error is checked.
On error the attribute map returned is nil except for a parse error of the attributes, where the
partially updated map is returned; `none` below is the nil map. -/
noncomputable def decodeM (env : Env) (buf : Slice) (n : Nat) :
    M (Option NfqGenMsg × Option AttrMap × Option Err) := do
  let view ← GoM.lift (buf.to n)
  let bytes ← readBytes view
  let (hdr, payload, err) ← GoM.lift (netlinkMessageToStruct env.e bytes)
  match hdr with
  | none => GoM.panic
  | some hdr =>
    let early ← (if hdr.type = 2 then do
        let (_, code) ← GoM.lift (netlinkErrMessagetoStruct env.e payload)
        if code ≠ 0 then pure (some (Err.netlink code)) else pure none
      else pure none : M (Option Err))
    match early with
    | some ne => pure (none, none, some ne)
    | none =>
      match err with
      | some err => pure (none, none, some (.wrap "Netlink message format invalid : %v" err))
      | none =>
        let (nfgen, _) ← GoM.lift (netlinkMessageToNfGenStruct payload)
        -- payload of the nfgenmsg: `view[16:][4:]`
        let p16 ← GoM.lift (view.from' 16)
        let p20 ← GoM.lift (p16.from' 4)
        let (m', err) ← parseAttrs env p20
        pure (some nfgen, some m', err)

/-- nfqueue/nfqueue.go:442-470 `Recv`. MSG_WAITALL = 0x100. -/
noncomputable def recv (env : Env) (K : Kernel QEv) :
    M (Option NfqGenMsg × Option AttrMap × Option Err) := do
  let q ← getQ
  let buf := q.buf
  match q.handle with
  | none => GoM.panic
  | some qh =>
    match ← recvInto K qh.fd buf 0x100 with
    | .error n => pure (none, none, some (.wrap "Unable to read from socket %v" (.errno n)))
    | .ok n => decodeM env buf n

/-- nfqueue/helpers.go:14-28 `GetPacketInfo`: packet id, mark, payload. -/
def getPacketInfo (e : Endian) (h : Heap) (attr : Option AttrMap) : Res (Nat × Nat × Option Slice) :=
  match attr with
  | none => .ok (0, 0, none)
  | some m => do
    let packetID ← match m 1 with
      | some s => do let v ← dec32 e (h.bytes s); pure v.toNat
      | none => pure 0
    let mark ← match m 3 with
      | some s => do let v ← dec32 .big (h.bytes s); pure v.toNat
      | none => pure 0
    pure (packetID, mark, m 10)

/-- Contents of an optional slice (`[]byte{}` when absent). -/
def optBytes (h : Heap) : Option Slice → List Byte
  | some s => h.bytes s
  | none => []

/-- Application code runs. -/
def runCallback (env : Env) : M Unit := fun w => .ok ((), env.cbEffect w)

/-- `GetPacketInfo` on the current memory. -/
def packetInfoM (env : Env) (attr : Option AttrMap) : M (Nat × Nat × Option Slice) := fun w =>
  getPacketInfo env.e w.heap attr >>= fun r => .ok (r, w)

/-- The packet callback is invoked. -/
def emitPacket (cb : Nat) (packet : Option Slice) (mark id priv : Nat) : M Unit := fun w =>
  .ok ((), w.log (.app (.packet cb (optBytes w.heap packet) mark id priv)))

/-- nfqueue/nfqueue.go:479-502: the `default` branch of the loop of `ProcessPackets`. -/
noncomputable def receiveOne (env : Env) (K : Kernel QEv) : M Unit := do
  let (nfgen, attr, err) ← recv env K
  let q ← getQ
  match err, q.errorCallback with
  | some err, some ecb =>
    emit (.error ecb (.wrap "Netlink error %v" err) nfgen)
    runCallback env
  | _, _ =>
    -- no error, or no error callback: fall through to the packet callback
    let (id, mark, packet) ← packetInfoM env attr
    modifyQ fun q => { q with processed := q.processed + 1 }
    match q.callback with
    | none => GoM.panic
    | some cb =>
      emitPacket cb packet mark id q.privateData
      runCallback env

/-- nfqueue/nfqueue.go:474-503: one iteration of the loop of `ProcessPackets`; `true` = the function
returned. Callbacks are application code: their invocation is recorded, then `env.cbEffect` happens. -/
noncomputable def processIter (env : Env) (K : Kernel QEv) : M Bool := fun w =>
  if env.ctxDone w.trace then (do nfqClose K; pure true : M Bool) w
  else (do receiveOne env K; pure false : M Bool) w

/-- nfqueue/nfqueue.go:473-504 `ProcessPackets`, observed for at most `n` iterations: `true` if
it returned by then. -/
noncomputable def processPackets (env : Env) (K : Kernel QEv) : Nat → M Bool
  | 0 => pure false
  | n + 1 => do
    if ← processIter env K then pure true else processPackets env K n

end Verif.NfQueue
