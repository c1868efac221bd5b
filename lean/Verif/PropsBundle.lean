/-
C122: bundling messages into one datagram makes no difference to the endpoint that receives them.
-/
import Verif.PropsExact3
import Verif.PropsSafe

namespace Verif.Spec
open Verif

/-- A message (its octets) and what the application does in the callbacks for it: those are called once if its IEs mean something, and not at all otherwise. -/
def Delivers (p : List UInt8 × List React) : Prop :=
  Framed p.1 ∧ ((∃ s, BodyMeans p.1 s) → ∃ r, p.2 = [r]) ∧ ((¬ ∃ s, BodyMeans p.1 s) → p.2 = [])

/-- The messages arrive one by one, each in a datagram of its own, at an endpoint that is open when they arrive. -/
inductive OneByOne (remote : Sockaddr) : Ep → List (List UInt8 × List React) → Ep → Prop
  | done {ep} : OneByOne remote ep [] ep
  | next {ep ep1 ep2 m rs l} : ep.sock = true → ep.rxDatagram remote m rs = .ok ep1 → OneByOne remote ep1 l ep2 → OneByOne remote ep ((m, rs) :: l) ep2

/-- All in one datagram. -/
def inOne (l : List (List UInt8 × List React)) : List UInt8 := (l.map Prod.fst).flatten

/-- All that the application does about them. -/
def reactions (l : List (List UInt8 × List React)) : List React := (l.map Prod.snd).flatten

end Verif.Spec

namespace Verif.Props
open Verif Spec

theorem handleSeen_append (remote : Sockaddr) : ∀ (a b : List Seen) (ra rb : List React) (ep : Ep), ra.length = a.length →
    ep.handleSeen remote (a ++ b) (ra ++ rb) = (ep.handleSeen remote a ra).bind fun ep1 => ep1.handleSeen remote b rb
  | [], b, [], rb, ep, _ => rfl
  | [], _, _ :: _, _, _, h => by cases h
  | _ :: _, _, [], _, _, h => by cases h
  | x :: a, b, r :: ra, rb, ep, h => by
    simp only [List.cons_append, Ep.handleSeen, List.headD_cons, List.tail_cons]
    have ih := fun ep => handleSeen_append remote a b ra rb ep (by simpa using h)
    cases ep.handleRx { msgAllocRx remote with isResponse := x.2.1, h := x.1, causeAt := x.2.2.1, nodeIdAt := x.2.2.2.1, ies := x.2.2.2.2 } r with
    | ok ep1 => exact ih ep1
    | _ => rfl

/-- How many messages are handled. -/
theorem delivers_length {m : List UInt8} {rs : List React} (h : Delivers (m, rs)) :
    rs.length = (handled [⟨headerOf m [], (decodeTlv (headerOf m [0])).toOption⟩]).length := by
  obtain ⟨hm, h1, h2⟩ := h
  obtain ⟨d, g1, -, g3, g4⟩ := C79_decoding m [0] hm (by simp)
  have hh := decodeHeader_framed hm [] [0]
  simp only [List.append_nil, List.nil_append] at hh
  rw [g1] at hh
  cases hh
  by_cases hs : ∃ s, BodyMeans m s
  · obtain ⟨r, hr⟩ := h1 hs
    obtain ⟨s, hs⟩ := hs
    rw [(g3 s).2 hs]
    dsimp only at hr
    rw [hr]
    rfl
  · obtain ⟨e, he⟩ := g4 hs
    rw [he]
    have := h2 hs
    dsimp only at this
    rw [this]
    rfl

theorem rx_split {ep : Ep} (h : Reached ep) {remote m rs} (hd : Delivers (m, rs)) {b rs'} (hb : Covered b) (hlen : (m ++ b).length < 2048)
    (hs : ep.sock = true) : ep.rxDatagram remote (m ++ b) (rs ++ rs') = (ep.rxDatagram remote m rs).bind fun ep1 =>
      (receive b (List.replicate (2048 - b.length) 0)).bind fun l => ep1.handleSeen remote l rs' := by
  have hz : ∀ n, n < 2048 → (0 : UInt8) ∈ List.replicate (2048 - n) 0 := fun n hn => List.mem_replicate.mpr ⟨by omega, rfl⟩
  have hl := List.length_append (as := m) (bs := b)
  rw [rxDatagram_receive h _ _ hlen, rxDatagram_receive h _ _ (by omega), if_pos hs, if_pos hs, receive_framed hd.1 b _ (hz _ hlen)]
  have h1 := receive_framed hd.1 [] (List.replicate (2048 - m.length) 0) (hz _ (by omega))
  rw [List.append_nil] at h1
  rw [h1]
  have h2 : receive [] (List.replicate (2048 - m.length) 0) = .ok [] := receive_none (.inl (by decide))
  rw [h2]
  simp only [Res.bind_ok', List.append_nil]
  rw [receive_slack _ (List.replicate (2048 - b.length) 0) (hz _ hlen) (hz _ (by omega)) b.length b (Nat.le_refl _) hb]
  obtain ⟨l, hl'⟩ := rxBundle_total (o := b) (slack := List.replicate (2048 - b.length) 0) (hz _ (by omega)) hb
  have h3 : receive b (List.replicate (2048 - b.length) 0) = .ok (handled l) := by unfold receive; rw [hl']; rfl
  rw [h3]
  simp only [Res.bind_ok']
  exact handleSeen_append remote _ _ rs rs' ep (delivers_length hd)

/-- C122, for two parts: to receive a message together with what follows in the same datagram is to receive it alone, and then what follows - unless the endpoint was closed
by the callbacks for that message. -/
theorem C122_split {ep ep1 : Ep} (h : Reached ep) {remote m rs} (hd : Delivers (m, rs)) {b rs'} (hb : Covered b) (hlen : (m ++ b).length < 2048)
    (h1 : ep.rxDatagram remote m rs = .ok ep1) (hs : ep1.sock = true) :
    ep.rxDatagram remote (m ++ b) (rs ++ rs') = ep1.rxDatagram remote b rs' := by
  have hr1 : Reached ep1 := .op (.rx remote m rs) h h1
  have hl := List.length_append (as := m) (bs := b)
  have hs0 : ep.sock = true := by
    cases hx : ep.sock with
    | true => rfl
    | false =>
      rw [rxDatagram_receive h _ _ (by omega), if_neg (by rw [hx]; nofun)] at h1
      cases h1
      rw [hx] at hs; cases hs
  rw [rx_split h hd hb hlen hs0, h1, rxDatagram_receive hr1 _ _ (by omega), if_pos hs]
  rfl

theorem inOne_covered : ∀ {l : List (List UInt8 × List React)}, (∀ p ∈ l, Delivers p) → Covered (inOne l) := fun {l} h =>
  C72_framed_covered (l.map Prod.fst) fun m hm => by
    obtain ⟨p, hp, rfl⟩ := List.mem_map.1 hm
    exact (h p hp).1

/-- C122: bundling makes no difference.  If messages arrive one by one at an open endpoint and it becomes `ep'` (which says all that was done, too), then it becomes exactly this
if they arrive in one datagram. -/
theorem C122_bundled {ep ep' : Ep} (h : Reached ep) {remote l} (hd : ∀ p ∈ l, Delivers p) (hlen : (inOne l).length < 2048)
    (ho : OneByOne remote ep l ep') : ep.rxDatagram remote (inOne l) (reactions l) = .ok ep' := by
  induction ho with
  | @done ep =>
    have := rxDatagram_receive h remote [] (by decide) []
    show ep.rxDatagram remote [] [] = _
    rw [this]
    split <;> rfl
  | @next ep ep1 ep2 m rs l hs h1 ho ih =>
    have hl : (m ++ inOne l).length < 2048 := hlen
    have hl' := hl
    rw [List.length_append] at hl'
    have hr1 : Reached ep1 := .op (.rx remote m rs) h h1
    have ih := ih hr1 (fun p hp => hd p (.tail _ hp)) (by omega)
    show ep.rxDatagram remote (m ++ inOne l) (rs ++ reactions l) = _
    cases ho with
    | done =>
      show ep.rxDatagram remote (m ++ []) (rs ++ []) = _
      rw [List.append_nil, List.append_nil]
      exact h1
    | next hs1 h2 ho =>
      rw [C122_split h (hd _ (.head _)) (inOne_covered fun p hp => hd p (.tail _ hp)) hl h1 hs1]
      exact ih

/-- C122, the converse: what a datagram does, its messages do one by one - unless the callbacks for one of them close the endpoint, which then still handles the others if
they are in the same datagram, but would not receive them in datagrams of their own. -/
theorem C122_unbundled {ep ep' : Ep} (h : Reached ep) (hs : ep.sock = true) {remote l} (hd : ∀ p ∈ l, Delivers p) (hlen : (inOne l).length < 2048)
    (hx : ep.rxDatagram remote (inOne l) (reactions l) = .ok ep') :
    OneByOne remote ep l ep' ∨ ∃ l1 l2 ep1, l = l1 ++ l2 ∧ l2 ≠ [] ∧ OneByOne remote ep l1 ep1 ∧ ep1.sock = false := by
  induction l generalizing ep with
  | nil =>
    have := rxDatagram_receive h remote [] (by decide) []
    have hx : ep.rxDatagram remote [] [] = .ok ep' := hx
    rw [this, if_pos hs] at hx
    cases hx
    exact .inl .done
  | cons p l ih =>
    obtain ⟨m, rs⟩ := p
    have hl : (m ++ inOne l).length < 2048 := hlen
    have hl' := hl
    rw [List.length_append] at hl'
    have hx : ep.rxDatagram remote (m ++ inOne l) (rs ++ reactions l) = .ok ep' := hx
    have hc := inOne_covered fun p hp => hd p (.tail _ hp)
    have hx' := hx
    rw [rx_split h (hd _ (.head _)) hc hl hs] at hx'
    obtain ⟨ep1, h1, hx'⟩ := Res.bind_eq_ok hx'
    have hr1 : Reached ep1 := .op (.rx remote m rs) h h1
    cases l with
    | nil =>
      have h2 : receive (inOne []) (List.replicate (2048 - (inOne []).length) 0) = .ok [] := receive_none (.inl (by decide))
      rw [h2] at hx'
      cases hx'
      exact .inl (.next hs h1 .done)
    | cons q l =>
      cases hs1 : ep1.sock with
      | false => exact .inr ⟨[(m, rs)], q :: l, ep1, rfl, nofun, .next hs h1 .done, hs1⟩
      | true =>
        rw [C122_split h (hd _ (.head _)) hc hl h1 hs1] at hx
        rcases ih hr1 hs1 (fun p hp => hd p (.tail _ hp)) (by omega) hx with h2 | ⟨l1, l2, ep2, e1, e2, e3, e4⟩
        · exact .inl (.next hs h1 h2)
        · exact .inr ⟨(m, rs) :: l1, l2, ep2, by rw [e1]; rfl, e2, .next hs h1 e3, e4⟩

/-! ### Examples -/

/-- A Session Modification Response, which is answered with a request in rx_msg_cb(), one without Cause, whose IEs mean nothing, and the first again. -/
def exThree : List (List UInt8 × List React) := [(exModResp, [{ onRx := .tx exReq true .done .done }]), (exNoCause, []), (exModResp, [{}])]

theorem exThree_delivers : ∀ p ∈ exThree, Delivers p := by
  intro p hp
  simp only [exThree, List.mem_cons, List.not_mem_nil, or_false] at hp
  rcases hp with rfl | rfl | rfl
  · exact ⟨by unfold Framed; decide, fun _ => ⟨_, rfl⟩, fun h => absurd ⟨_, exModResp_means⟩ h⟩
  · exact ⟨by unfold Framed; decide, fun h => absurd h exNoCause_means, fun _ => rfl⟩
  · exact ⟨by unfold Framed; decide, fun _ => ⟨_, rfl⟩, fun h => absurd ⟨_, exModResp_means⟩ h⟩

/-- Messages that were received, and messages that were sent. -/
def countRx (x : Res Ep) : Option (Nat × Nat) :=
  match x with
  | .ok ep => some ((ep.log.filter fun e => match e with | .received .. => true | _ => false).length, (ep.log.filter fun e => match e with | .send .. => true | _ => false).length)
  | _ => none

/-- The hypotheses are met: they arrive one by one at an endpoint that is open. -/
example : ∃ ep ep', Reached ep ∧ (inOne exThree).length < 2048 ∧ OneByOne exUpf ep exThree ep' ∧ countRx (.ok ep') = some (2, 1) := by
  have h : ∃ ep ep1 ep2 ep3, Op.step (.app (.bind true .done)) exEp = .ok ep ∧ ep.sock = true ∧
      ep.rxDatagram exUpf exModResp [{ onRx := .tx exReq true .done .done }] = .ok ep1 ∧ ep1.sock = true ∧
      ep1.rxDatagram exUpf exNoCause [] = .ok ep2 ∧ ep2.sock = true ∧ ep2.rxDatagram exUpf exModResp [{}] = .ok ep3 ∧ countRx (.ok ep3) = some (2, 1) := by
    set_option maxRecDepth 100000 in exact ⟨_, _, _, _, rfl, rfl, rfl, rfl, rfl, rfl, rfl, rfl⟩
  obtain ⟨ep, ep1, ep2, ep3, h0, s0, h1, s1, h2, s2, h3, hc⟩ := h
  exact ⟨ep, ep3, .op _ (.create _ _ _ _ _ _) h0, by decide, .next s0 h1 (.next s1 h2 (.next s2 h3 .done)), hc⟩

/-- If the callback for the first message closes the endpoint, then a second one in the same datagram is still received, but not one in a datagram of its own. -/
example : countRx (exec [.app (.bind true .done), .rx exUpf (exModResp ++ exModResp) [{ onRx := .close .done }, {}]] exEp) = some (2, 0) ∧
    countRx (exec [.app (.bind true .done), .rx exUpf exModResp [{ onRx := .close .done }], .rx exUpf exModResp [{}]] exEp) = some (1, 0) := by
  set_option maxRecDepth 100000 in exact ⟨rfl, rfl⟩

end Verif.Props
