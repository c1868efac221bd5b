/-
Specification of C99: what encoding gives when there is little room.
-/
import Verif.SpecMsg

namespace Verif.Spec
open Verif

/-- What comes of writing to a buffer: success, -EINVAL, or the program is aborted. -/
inductive Fate (α : Type) where
  | done (x : α)
  | refused
  | crash

/-- First the one, then the other, if the one succeeds. -/
def Fate.then {α β : Type} : Fate α → (α → Fate β) → Fate β
  | .done x, f => f x
  | .refused, _ => .refused
  | .crash, _ => .crash

/-- An encoder that writes to `b` and returns `r` has this fate. -/
def FateIs (b : Msgb) : Fate (List UInt8) → Out Msgb → Prop
  | .done o, r => r = .ok { b with data := b.data ++ o }
  | .refused, r => ∃ b', r = .err .EINVAL b'
  | .crash, r => r = .abort

/-- Writing the value of an IE with `room` octets left: all of it if it fits. If not, a name is refused; for all other
values, and for the first octet of a Node ID, too little room is fatal. -/
def ieFate (v : IeVal) (room : Nat) : Fate (List UInt8) :=
  if (wire v).length ≤ room then .done (wire v)
  else match v with
    | .networkInst _ => .refused
    | .nodeId (.fqdn _) => if room = 0 then .crash else .refused
    | _ => .crash

/-- What has been written of a message or of a grouped IE: octets that belong to no IE, then IEs, the newest first. -/
structure Level where
  lead : List UInt8 := []
  ies : List Ie := []

/-- The octets. -/
def Level.octets (l : Level) : List UInt8 := l.lead ++ octets16 l.ies.reverse

/-- Octets without tag and length become part of the IE that was written before. -/
def Level.add (l : Level) (o : List UInt8) : Level :=
  match l.ies with
  | [] => { l with lead := l.lead ++ o }
  | (tag, c) :: ies => { l with ies := (tag, c ++ o) :: ies }

/-- Writing one more IE, where `room` is all the room of this message or grouped IE: if there is no room for tag and
length, they are left out. -/
def Level.write (room tag : Nat) (value : Nat → Fate (List UInt8)) (l : Level) : Fate Level :=
  let left := room - l.octets.length
  if 4 ≤ left then (value (left - 4)).then fun o => .done { l with ies := (tag, o) :: l.ies }
  else (value left).then fun o => .done (l.add o)

/-- Writing one after the other. -/
def Level.writeAll {α : Type} (step : α → Level → Fate Level) : List α → Level → Fate Level
  | [], l => .done l
  | v :: vs, l => (step v l).then (writeAll step vs)

mutual
/-- Writing a value with `room` octets left. -/
def valueFate : Ty → Val IeVal → Nat → Fate (List UInt8)
  | .ie _, .leaf v, room => ieFate v room
  | .group f, .node s, room => (levelFate room f s {}).then fun l => .done l.octets
  | _, _, _ => .crash
/-- Writing the IEs of a struct in the order of the layout. -/
def levelFate (room : Nat) : Fields → Struct IeVal → Level → Fate Level
  | .cons iei _ ty f, vs :: s, l =>
    (Level.writeAll (fun v => Level.write room iei (valueFate ty v)) vs l).then (levelFate room f s)
  | _, _, l => .done l
end

/-- Writing a struct with `room` octets left. -/
def structFate (f : Fields) (s : Struct IeVal) (room : Nat) : Fate (List UInt8) := valueFate (.group f) (.node s) room

/-- What osmo_pfcp_msg_encode() gives. -/
def Encoded (before : List UInt8) (h : Hdr) : Fate (List UInt8) → Out Buf → Prop
  | .done o, r => ∃ buf, r = .ok buf ∧ buf.b.data = before ++ msgOctets false h o
  | .refused, r => ∃ buf, r = .err .EINVAL buf
  | .crash, r => r = .abort

/-- What becomes of a message when it is encoded for sending, by osmo_pfcp_endpoint_tx() and others. -/
def sendFate (m : PMsg) (f : Fields) : Fate (List UInt8) := structFate f m.ies (2048 - headerLen m.h.seidPresent)

end Verif.Spec
