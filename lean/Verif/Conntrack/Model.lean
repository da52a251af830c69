import Verif.Common.Model
import Verif.Sys.Model
/-!
Model of package `conntrack` (/repo/conntrack/{conntrack,sockets,types,constants}.go).

`Handles` carries nothing but the system call wrappers, so there is no package state; there are no
application callbacks.
-/
namespace Verif.Conntrack
open Common Sys

/-- There are no application events. -/
inductive CEv where
deriving DecidableEq

/-- What surrounds the process: host byte order and `net.ParseIP`, a standard library function: [] = nil. -/
structure Env where
  e : Endian
  parseIP : String → List Byte

/-- State of the world. -/
abbrev W := World CEv Unit
/-- Code running in it. -/
abbrev M := GoM W

/-- `netlink.ConntrackFlow.Forward/.Reverse` (github.com/vishvananda/netlink): the fields used. -/
structure Tuple where
  srcIP : List Byte
  dstIP : List Byte
  protocol : Byte
  srcPort : U16
  dstPort : U16
deriving DecidableEq, Repr

/-- `netlink.ConntrackFlow`: the fields used.  Pointers to flows are taken to be non-nil. -/
structure Flow where
  forward : Tuple
  reverse : Tuple
deriving DecidableEq, Repr

/-! ### Socket -/

/-- conntrack/sockets.go:12-28 `open`.  AF_NETLINK = 16, SOCK_RAW = 3, NETLINK_NETFILTER = 12.  The handle is
represented by its descriptor. -/
def openSock (K : Kernel CEv) : M (Except Err Nat) := do
  match ← socket K 16 3 12 with
  | .error n => pure (.error (.errno n))
  | .ok fd =>
    match ← bind K fd with
    | some n => pure (.error (.errno n))
    | none => pure (.ok fd)

/-- `syscall.NetlinkMessage` -/
structure NetlinkMessage where
  header : NlMsghdr
  data : List Byte
deriving DecidableEq

/-- conntrack/sockets.go:65-72: the bytes `send` puts on the wire. -/
def wireBytes (e : Endian) (msg : NetlinkMessage) : Res (List Byte) := do
  let buf := zeros (16 + msg.data.length)
  let buf ← writeAt buf 0 (enc32 e msg.header.len)
  let buf ← writeAt buf 4 (enc16 e msg.header.type)
  let buf ← writeAt buf 6 (enc16 e msg.header.flags)
  let buf ← writeAt buf 8 (enc32 e msg.header.seq)
  let buf ← writeAt buf 12 (enc32 e msg.header.pid)
  writeAt buf 16 msg.data

/-- conntrack/sockets.go:64-74 `send` -/
def send (env : Env) (K : Kernel CEv) (fd : Nat) (msg : NetlinkMessage) : M (Option Err) := do
  let buf ← GoM.lift (wireBytes env.e msg)
  match ← sendto K fd buf 0 with
  | some n => pure (some (.errno n))
  | none => pure none

/-- conntrack/sockets.go:45-61: reading the reply `d`; NLMSG_ERROR = 2. -/
def readReply (e : Endian) (d : List Byte) : Res (Option Err) := do
  let (hdr, next, err) ← netlinkMessageToStruct e d
  match err, hdr with
  | some err, _ => .ok (some err)
  | none, none => .panic
  | none, some hdr =>
    if hdr.type = 2 then do
      let (_, code) ← netlinkErrMessagetoStruct e next
      if code ≠ 0 then .ok (some (.netlink code))
      else do
        let _ ← netlinkMessageToNfGenStruct next
        .ok none
    else do
      let _ ← netlinkMessageToNfGenStruct next
      .ok none

/-- conntrack/sockets.go:38-62 `recv`, into the buffer that was sent -/
def recv (env : Env) (K : Kernel CEv) (fd bufLen : Nat) : M (Option Err) := do
  match ← recvfrom K fd bufLen 0 with
  | .error n => pure (some (.wrap "Recvfrom returned error %v" (.errno n)))
  | .ok d => GoM.lift (readReply env.e d)

/-- conntrack/sockets.go:30-36 `query` (`len(sh.buf)` is what `send` made it) -/
def query (env : Env) (K : Kernel CEv) (fd : Nat) (msg : NetlinkMessage) : M (Option Err) := do
  match ← send env K fd msg with
  | some err => pure (some err)
  | none => recv env K fd (16 + msg.data.length)

/-- conntrack/sockets.go:88-90 `close` -/
def closeSock (K : Kernel CEv) (fd : Nat) : M Unit := do
  let _ ← Sys.close K fd
  pure ()

/-- conntrack/conntrack.go:248-261 `sendMessage`: when `open` fails, `sh` is a nil interface and the deferred
`sh.close()` panics. -/
def sendMessage (env : Env) (K : Kernel CEv) (hdr : NlMsghdr) (data : List Byte) : M (Option Err) := do
  match ← openSock K with
  | .error _ => GoM.panic
  | .ok fd => do
    let r ← query env K fd { header := hdr, data := data }
    closeSock K fd
    pure r

/-! ### Requests -/

/-- `copyIndex += x.ToWireFormatBuf(buf[copyIndex:])`: write at the index and advance it. -/
def appendAt (f : List Byte → Res (List Byte × Nat)) (s : List Byte × Nat) : Res (List Byte × Nat) := do
  let sub ← sliceFrom s.1 s.2
  let (sub', n) ← f sub
  .ok (s.1.take s.2 ++ sub', s.2 + n)

/-- conntrack/conntrack.go:159-199 `buildConntrackUpdateRequest`.  0x100 = NfnlConntrackTable, flags 5 =
REQUEST|ACK, family 2 = AF_INET, 0x8000 = NLA_F_NESTED; attribute types: TUPLE_ORIG 1 {TUPLE_IP 1 {V4_SRC 1, V4_DST 2},
TUPLE_PROTO 2 {NUM 1, SRC_PORT 2, DST_PORT 3}}; nested sizes 48, 16, 24 and PROTO_*_LEN 5, 6, 6 from constants.go. -/
def buildConntrackUpdateRequest (env : Env) (ipSrc ipDst : String) (protonum : Byte) (srcport dstport : U16) :
    Res (NlMsghdr × List Byte) := do
  let src ← ip2int (env.parseIP ipSrc)
  let dst ← ip2int (env.parseIP ipDst)
  let hdr := buildNlMsgHeader 0x100 5 0
  let (nfgen, hdr) := buildNfgenMsg 2 0 0 hdr
  let (orig, hdr) := buildNfAttrMsg 0x8001 hdr 48
  let ip := buildNfNestedAttrMsg 0x8001 16
  let v4src := buildNfNestedAttrMsg 1 4
  let v4dst := buildNfNestedAttrMsg 2 4
  let proto := buildNfNestedAttrMsg 0x8002 24
  let num := buildNfAttrWithPaddingMsg 1 5
  let sport := buildNfAttrWithPaddingMsg 2 6
  let dport := buildNfAttrWithPaddingMsg 3 6
  let buf := zeros (3 * 4 + 4 + 2 * (nfaLength 4).toNat + 2 * (nfaLength 2).toNat + (nfaLength 1).toNat)
  let s ← nfgen.toWireFormatBuf buf
  let s ← appendAt (orig.toWireFormatBuf env.e) s
  let s ← appendAt (ip.toWireFormatBuf env.e) s
  let s ← appendAt (v4src.toWireFormatBuf env.e) s
  let s ← appendAt (value32ToWireFormatBuf src) s
  let s ← appendAt (v4dst.toWireFormatBuf env.e) s
  let s ← appendAt (value32ToWireFormatBuf dst) s
  let s ← appendAt (proto.toWireFormatBuf env.e) s
  let s ← appendAt (num.toWireFormatBuf env.e) s
  let s ← appendAt (value8ToWireFormatBuf protonum) s
  let s ← appendAt (sport.toWireFormatBuf env.e) s
  let s ← appendAt (value16ToWireFormatBuf srcport) s
  let s ← appendAt (dport.toWireFormatBuf env.e) s
  let s ← appendAt (value16ToWireFormatBuf dstport) s
  .ok (hdr, s.1)

/-- conntrack/conntrack.go:202-209 `appendMark`: the bytes and the updated header; CTA_MARK = 8. -/
def appendMark (env : Env) (mark : U32) (hdr : NlMsghdr) : Res (List Byte × NlMsghdr) := do
  let (attr, hdr) := buildNfAttrMsg 8 hdr 4
  let a ← attr.toWireFormat env.e
  let b ← value32ToWireFormat mark
  .ok (a ++ b, hdr)

/-- conntrack/conntrack.go:212-222 `appendLabel`: CTA_LABELS = 22, value in host order. -/
def appendLabel (env : Env) (label : U32) (hdr : NlMsghdr) : Res (List Byte × NlMsghdr) := do
  let (attr, hdr) := buildNfAttrMsg 22 hdr 4
  let buf ← writeAt (zeros 4) 0 (enc32 env.e label)
  let a ← attr.toWireFormat env.e
  .ok (a ++ buf, hdr)

/-- conntrack/conntrack.go:226-246 `appendProtoInfo`: CTA_PROTOINFO = 4 {CTA_PROTOINFO_TCP = 1 {FLAGS_ORIGINAL = 4,
FLAGS_REPLY = 5}}; the flags attributes state length 4 (`NfValue16.Length()`), which does not count
their header. -/
def appendProtoInfo (env : Env) (hdr : NlMsghdr) : Res (List Byte × NlMsghdr) := do
  let (protoData, hdr) := buildNfAttrMsg 0x8004 hdr 20
  let protoTCPData := buildNfNestedAttrMsg 0x8001 16
  let protoOriginal := buildNfAttrWithPaddingMsg 4 4
  let protoReply := buildNfAttrWithPaddingMsg 5 4
  let a ← protoData.toWireFormat env.e
  let b ← protoTCPData.toWireFormat env.e
  let c ← protoOriginal.toWireFormat env.e
  let d ← value16ToWireFormat 2570
  let e ← protoReply.toWireFormat env.e
  let f ← value16ToWireFormat 2570
  .ok (a ++ b ++ c ++ d ++ e ++ f, hdr)

/-- conntrack/conntrack.go:67-72: the message of a mark update -/
def markMessage (env : Env) (ipSrc ipDst : String) (protonum : Byte) (srcport dstport : U16) (newmark : U32) :
    Res (NlMsghdr × List Byte) := do
  let (hdr, data) ← buildConntrackUpdateRequest env ipSrc ipDst protonum srcport dstport
  let (m, hdr) ← appendMark env newmark hdr
  .ok (hdr, data ++ m)

/-- conntrack/conntrack.go:65-75 `ConntrackTableUpdateMark` -/
def updateMark (env : Env) (K : Kernel CEv) (ipSrc ipDst : String) (protonum : Byte) (srcport dstport : U16)
    (newmark : U32) : M (Option Err) := do
  let msg ← GoM.lift (markMessage env ipSrc ipDst protonum srcport dstport newmark)
  sendMessage env K msg.1 msg.2

/-- `common.IP2int(a) == common.IP2int(net.ParseIP(s))` -/
def sameIP (env : Env) (a : List Byte) (s : String) : Res Bool := do
  let x ← ip2int a
  let y ← ip2int (env.parseIP s)
  .ok (x == y)

/-- `x && y`, where evaluating `y` may crash -/
def andThen (x y : Res Bool) : Res Bool := do
  if ← x then y else .ok false

/-- conntrack/conntrack.go:115-154 `checkTuplesInFlow` -/
def checkTuplesInFlow (env : Env) (flow : Flow) (ipSrc ipDst : String) (protonum : Byte) (srcport dstport : U16) :
    Res Bool := do
  let isSrcIPPresent ← andThen (sameIP env flow.forward.srcIP ipSrc) (sameIP env flow.reverse.srcIP ipDst)
  let isDstIPPresent ← andThen (sameIP env flow.forward.dstIP ipDst) (sameIP env flow.reverse.dstIP ipSrc)
  let isProtoPresent := flow.forward.protocol == protonum && flow.reverse.protocol == protonum
  let isSrcPortPresent := flow.forward.srcPort == srcport && flow.reverse.srcPort == dstport
  let isDstPortPresent := flow.forward.dstPort == dstport && flow.reverse.dstPort == srcport
  .ok (isSrcIPPresent && isDstIPPresent && isSrcPortPresent && isDstPortPresent && isProtoPresent)

/-- conntrack/conntrack.go:45-55: the loop of `ConntrackTableUpdateMarkForAvailableFlow`; `n` = entries updated
so far (an `int` bounded by the number of flows). -/
def markLoop (env : Env) (K : Kernel CEv) (ipSrc ipDst : String) (protonum : Byte) (srcport dstport : U16)
    (newmark : U32) : List Flow → Nat → M (Nat × Option Err)
  | [], n => pure (n, none)
  | f :: fs, n => do
    let present ← GoM.lift (checkTuplesInFlow env f ipSrc ipDst protonum srcport dstport)
    if present && newmark != 0 then do
      match ← updateMark env K ipSrc ipDst protonum srcport dstport newmark with
      | some err => pure (0, some err)
      | none => markLoop env K ipSrc ipDst protonum srcport dstport newmark fs (n + 1)
    else markLoop env K ipSrc ipDst protonum srcport dstport newmark fs n

/-- conntrack/conntrack.go:41-62 `ConntrackTableUpdateMarkForAvailableFlow`.  Line 51 is `fmt.Errorf("Error %v", err)`. -/
def updateMarkForAvailableFlow (env : Env) (K : Kernel CEv) (flows : List Flow) (ipSrc ipDst : String)
    (protonum : Byte) (srcport dstport : U16) (newmark : U32) : M (Int × Option Err) := do
  match ← markLoop env K ipSrc ipDst protonum srcport dstport newmark flows 0 with
  | (_, some err) => pure (0, some (.wrap "Error %v" err))
  | (n, none) => if (n : Int) ≥ 0 then pure ((n : Int), none) else pure (-1, some (.msg "Entry not present"))

/-- conntrack/conntrack.go:89-96: the message of a label update; TCP_PROTO = 6. -/
def labelMessage (env : Env) (ipSrc ipDst : String) (protonum : Byte) (srcport dstport : U16) (newlabels : U32) :
    Res (NlMsghdr × List Byte) := do
  let (hdr, data) ← buildConntrackUpdateRequest env ipSrc ipDst protonum srcport dstport
  if protonum = 6 then do
    let (p, hdr) ← appendProtoInfo env hdr
    let (l, hdr) ← appendLabel env newlabels hdr
    .ok (hdr, data ++ p ++ l)
  else do
    let (l, hdr) ← appendLabel env newlabels hdr
    .ok (hdr, data ++ l)

/-- conntrack/conntrack.go:85-104: the loop of `ConntrackTableUpdateLabel` -/
def labelLoop (env : Env) (K : Kernel CEv) (ipSrc ipDst : String) (protonum : Byte) (srcport dstport : U16)
    (newlabels : U32) : List Flow → Nat → M (Nat × Option Err)
  | [], n => pure (n, none)
  | f :: fs, n => do
    let present ← GoM.lift (checkTuplesInFlow env f ipSrc ipDst protonum srcport dstport)
    if present then do
      let msg ← GoM.lift (labelMessage env ipSrc ipDst protonum srcport dstport newlabels)
      match ← sendMessage env K msg.1 msg.2 with
      | some err => pure (0, some err)
      | none => labelLoop env K ipSrc ipDst protonum srcport dstport newlabels fs (n + 1)
    else labelLoop env K ipSrc ipDst protonum srcport dstport newlabels fs n

/-- conntrack/conntrack.go:80-111 `ConntrackTableUpdateLabel`; the table argument is not used. -/
def updateLabel (env : Env) (K : Kernel CEv) (flows : List Flow) (ipSrc ipDst : String)
    (protonum : Byte) (srcport dstport : U16) (newlabels : U32) : M (Int × Option Err) := do
  match ← labelLoop env K ipSrc ipDst protonum srcport dstport newlabels flows 0 with
  | (_, some err) => pure (0, some err)
  | (n, none) => if (n : Int) ≥ 0 then pure ((n : Int), none) else pure (0, some (.msg "Entry not present"))

/-- conntrack/conntrack.go:24-30 `ConntrackTableList`, given what the library function returned (`none` = nil
slice). -/
def tableList (result : Option (List Flow)) (err : Option Err) : Option (List Flow) × Option Err :=
  if result.isNone || err.isSome then (none, some (.msg "Empty table")) else (result, none)

/-- conntrack/conntrack.go:34-37 `ConntrackTableFlush`, given what the library function returned. -/
def tableFlush (err : Option Err) : Option Err := err

end Verif.Conntrack
