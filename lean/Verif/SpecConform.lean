/-
Specification: the message header of 3GPP TS 29.244 (section 7.2.2).
-/
import Verif.SpecMeaning

namespace Verif.Spec
open Verif

/-- A message as in TS 29.244 7.2.2: octet 1 has the version (bits 8-6), spare bits 5-4, FO (bit 3), MP (bit 2), S (bit 1);
octet 2 the message type; octets 3-4 the length of what follows; then the SEID, if S; the sequence number; and an octet that has
the message priority in bits 8-5 if MP, and is spare otherwise. -/
def standardOctets (followOn : Bool) (h : Hdr) (ies : List UInt8) : List UInt8 :=
  [octet (32 * h.version + bit 2 followOn + bit 1 h.prioPresent + bit 0 h.seidPresent), octet h.type]
    ++ be 2 ((part h.seidPresent (be 8 h.seid)).length + 4 + ies.length)
    ++ part h.seidPresent (be 8 h.seid) ++ be 3 h.seq ++ [octet (if h.prioPresent then 16 * h.prio else 0)] ++ ies

end Verif.Spec
