import Verif.Model.Connect

/-!
# From the text of an IP address to the address (`DPPIR/sockets/common.cc`)

`ConnectTo` gets the text of the configuration as a C string and turns it into an IPv4
address by `inet_pton`.  That function of the C library is modelled after glibc.
-/

namespace DPPIR.Connect
open DPPIR.Config
open DPPIR.Protocol (Node)

/-- `std::string::c_str()` as a C string (client_socket.cc:15,
parallel_socket.cc:88): it ends at the first NUL. -/
def cstr (text : List Byte) : List Byte := text.takeWhile (fun b => b ≠ 0)

/-- The variables of `inet_pton(AF_INET, …)`: the octets before the current one, the
current one, whether it has a digit, and the number of octets with a digit. -/
structure Pton where
  before : List Nat := []
  cur : Nat := 0
  sawDigit : Bool := false
  octets : Nat := 0

/-- One character in `inet_pton` (called at common.cc:58); `none` is the return value 0. -/
def Pton.step (p : Pton) (ch : Byte) : Option Pton :=
  if 48 ≤ ch.toNat ∧ ch.toNat ≤ 57 then
    if p.sawDigit = true ∧ p.cur = 0 then none
    else if p.cur * 10 + (ch.toNat - 48) > 255 then none
    else if p.sawDigit = true then some { p with cur := p.cur * 10 + (ch.toNat - 48) }
    else if p.octets + 1 > 4 then none
    else some { p with cur := p.cur * 10 + (ch.toNat - 48), sawDigit := true, octets := p.octets + 1 }
  else if ch.toNat = 46 ∧ p.sawDigit = true then
    if p.octets = 4 then none else some { p with before := p.before ++ [p.cur], cur := 0, sawDigit := false }
  else none

/-- The loop over the characters of `inet_pton` (called at common.cc:58). -/
def Pton.run : Pton → List Byte → Option Pton
  | p, [] => some p
  | p, ch :: l => match p.step ch with
    | none => none
    | some p => Pton.run p l

/-- The number with the given octets, the first of which is the most significant. -/
def address (octets : List Nat) : BitVec 32 := BitVec.ofNat 32 (octets.foldl (fun a o => a * 256 + o) 0)

/-- `inet_pton(AF_INET, ip, &sin_addr)` (called at common.cc:58): the return value and
what is then in `sin_addr`, which held `junk` before; a failed call does not write it. -/
def inetPton (junk : BitVec 32) (ip : List Byte) : Int × BitVec 32 :=
  match Pton.run {} ip with
  | none => (0, junk)
  | some p => if p.octets < 4 then (0, junk) else (1, address (p.before ++ [p.cur]))

/-- `servaddr.sin_addr` (common.cc:54-58): `junk` is the content of the uninitialised
local variable. -/
def servaddr (junk : BitVec 32) (text : List Byte) : Res (BitVec 32) := do
  assert (0 ≤ (inetPton junk (cstr text)).1)
  .ok (inetPton junk (cstr text)).2

/-- `ConnectTo(ip, port)` (common.cc:29-67) by process `i`, from the text of the address;
`net i a` is the machine it reaches at address `a`. -/
def connectText {H : Type} (net : Node → BitVec 32 → H) (junk : BitVec 32) (i : Node) (text : List Byte) (port : BitVec 32) :
    CProc Node (Addr H) (Sock Node) := do
  let a ← CProc.lift (servaddr junk text)
  connectTo (net i a, port16 port)

/-- The machines process `i` reaches under the texts of a configuration; `junk i text` is
the content of `servaddr` when process `i` connects to `text`. -/
def Hosts.resolving {H : Type} (home : Node → H) (net : Node → BitVec 32 → H) (junk : Node → List Byte → BitVec 32) : Hosts H where
  home := home
  reach := fun i text => net i (inetPton (junk i text) (cstr text)).2

end DPPIR.Connect
