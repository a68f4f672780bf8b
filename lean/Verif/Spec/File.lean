import Verif.Spec.Object

/-!
# File object (CIP Volume 1, 5-42)

The requests and answers of an upload.  No definition here refers to the model of
`FileObject`.
-/

namespace Verif.Spec

/-- Read the state attribute. -/
def fileStateReq (inst : BitVec 16) : Req := ⟨0x0E#8, ⟨0x37, inst, 1, 3⟩, []⟩
/-- Start an upload with packets of at most 255 bytes. -/
def fileBeginReq (inst : BitVec 16) : Req := ⟨0x4B#8, ⟨0x37, inst, 0, 2⟩, [255#8]⟩
/-- Ask for packet `k`, numbered modulo 256. -/
def fileNextReq (inst : BitVec 16) (k : Nat) : Req := ⟨0x4F#8, ⟨0x37, inst, 0, 2⟩, le 1 k⟩

/-- The answer to `fileBeginReq`: size of the file, size of a packet. -/
def fileAnnounce (size packet : Nat) : List (BitVec 8) := le 4 size ++ le 1 packet

/-- The exchanges that carry `chunks` and then `last`, beginning with packet `k`.  Type
0 is the first packet, 1 a middle packet, 2 the last, 4 the first and last.  The last
packet ends with a checksum. -/
def fileTransfers (inst : BitVec 16) (crc : List (BitVec 8)) (k : Nat) :
    List (List (BitVec 8)) → List (BitVec 8) → List (Req × List (BitVec 8))
  | [], last => [(fileNextReq inst k, le 1 k ++ le 1 (if k = 0 then 4 else 2) ++ last ++ crc)]
  | c :: cs, last =>
    (fileNextReq inst k, le 1 k ++ le 1 (if k = 0 then 0 else 1) ++ c) :: fileTransfers inst crc (k + 1) cs last

/-- A request with its answer. -/
structure Exchange where
  req : Req
  resp : MessageRouterResponse

/-- The same responder, keeping a list of the exchanges. -/
def recorded {δ : Type} (D : Device δ) : Device (δ × List Exchange) :=
  ⟨fun r s => match D.answer r s.1 with
    | .ok d resp => .ok (d, s.2 ++ [⟨r, resp⟩]) resp
    | .throw d e => .throw (d, s.2) e
    | .ub => .ub⟩

/-- `Received inst ts log n l c done`: from the exchanges `log`, in this order, the client took
`n` packets that are not last and `l` that are last, and their payloads make up `c`;
`done` tells if the last exchange carried a last packet.  Packets were taken only in answer
to a request for their number, which is the number of packets before, not counting
last ones.  Other exchanges may be in between. -/
inductive Received (inst : BitVec 16) (ts : Nat) : List Exchange → Nat → Nat → List (BitVec 8) → Bool → Prop
  | nothing : Received inst ts [] 0 0 [] false
  | other {log n l c b} (x : Exchange) : Received inst ts log n l c b → Received inst ts (log ++ [x]) n l c false
  | piece {log n l c b} (x : Exchange) (type : Nat) (bs tail : List (BitVec 8)) : Received inst ts log n l c b →
      x.req = fileNextReq inst n → x.resp.status = 0x00#8 →
      x.resp.data = le 1 n ++ le 1 type ++ bs ++ tail → type = 0 ∨ type = 1 → bs.length = ts →
      Received inst ts (log ++ [x]) (n + 1) l (c ++ bs) false
  | last {log n l c b} (x : Exchange) (type : Nat) (bs crc : List (BitVec 8)) : Received inst ts log n l c b →
      x.req = fileNextReq inst n → x.resp.status = 0x00#8 →
      x.resp.data = le 1 n ++ le 1 type ++ bs ++ crc → type = 2 ∨ type = 4 → crc.length = 2 →
      Received inst ts (log ++ [x]) n (l + 1) (c ++ bs) true

/-- In the exchanges there is an announcement of an upload of so many bytes in packets of
`ts`, and behind it the packets taken make up `c`. -/
def UploadOf (inst : BitVec 16) (log : List Exchange) (size ts n l : Nat) (c : List (BitVec 8)) (done : Bool) : Prop :=
  ∃ pre r tail post, log = pre ++ ⟨fileBeginReq inst, r⟩ :: post ∧ r.status = 0x00#8 ∧
    r.data = fileAnnounce size ts ++ tail ∧ Received inst ts post n l c done

/-- A file as a device sends it: packets of `ts` bytes, a last packet, and its checksum. -/
structure FileParts where
  ts : Nat
  chunks : List (List (BitVec 8))
  last : List (BitVec 8)
  crc : List (BitVec 8)

/-- The file. -/
def FileParts.content (p : FileParts) : List (BitVec 8) := p.chunks.flatten ++ p.last

/-- The parts fit the fields of the messages. -/
def FileParts.Proper (p : FileParts) : Prop :=
  p.ts < 256 ∧ (∀ c ∈ p.chunks, c.length = p.ts) ∧ p.crc.length = 2 ∧ p.content.length < 2 ^ 32

/-- The exchanges of one upload: the state (a byte), the announcement, the packets. -/
def FileParts.exchanges (inst : BitVec 16) (state : BitVec 8) (p : FileParts) : List (Req × List (BitVec 8)) :=
  (fileStateReq inst, [state]) :: (fileBeginReq inst, fileAnnounce p.content.length p.ts) ::
    fileTransfers inst p.crc 0 p.chunks p.last

/-- The code of the state of an object when the device has answered with this state: an upload that was going on at
the device has to be begun again. -/
def codeFor : Nat → Option (BitVec 8)
  | 0 => some 0
  | 1 => some 1
  | 2 | 3 | 5 => some 2
  | _ => none

/-- The call has returned or thrown and has left this behind. -/
def Leaves {σ α : Type} (r : Res σ α) (s : σ) : Prop := (∃ a, r = .ok s a) ∨ ∃ e, r = .throw s e

end Verif.Spec
