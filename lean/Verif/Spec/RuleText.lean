import Verif.Model.RuleText
import Verif.Spec.Format
/-
The line of text for a rule.  From Model/RuleText only the types of streams, logs and environments are used.
-/
namespace WS.Spec.Txt
open WS WS.Txt WS.Spec

/-- The text of an address: link-layer addresses as hexadecimal bytes between colons, IP addresses with the number of bits behind a slash (IPv6
ones between brackets), local addresses between quotes, CAN identifiers as eight hexadecimal digits between quotes; registered families by their
formatter. -/
def AddrIs (E : Env) (family : Nat) (a : List Byte) (bits : Nat) (t : List Byte) : Prop :=
  match E.formatter family with
  | some fm => fm a bits 256 = .ok t
  | none =>
    (family = 118 ∧ t = joined (ascii ":") ((a.take (bits / 8)).map hexByte)) ∨
    (family = 2 ∧ bits ≤ 32 ∧ t = E.ntop4 (padded 4 (a.take ((bits + 7) / 8))) ++ ascii "/" ++ decimal bits) ∨
    (family = 10 ∧ bits ≤ 128 ∧ t = ascii "[" ++ E.ntop6 (padded 16 (a.take ((bits + 7) / 8))) ++ ascii "]/" ++ decimal bits) ∨
    (family = 1 ∧ 0#8 ∉ a.take ((bits + 7) / 8) ∧ t = ascii "\"" ++ a.take ((bits + 7) / 8) ++ ascii "\"") ∨
    (family = 29 ∧ 1 ≤ bits ∧ bits ≤ 32 ∧ t = ascii "\"0x" ++ (padded 4 (a.take ((bits + 7) / 8))).flatMap hexByte ++ ascii "\"")

/-- The text of the address of an endpoint: `*` for any address, address `&` mask for a rule that matches by bits. -/
def EndAddrIs (E : Env) (r : Route) (e : Endpoint) (aw bm : Nat) (t : List Byte) : Prop :=
  if r.flags.getLsbD aw then t = ascii "*"
  else if r.flags.getLsbD bm then
    ∃ a m, AddrIs E r.family e.addr (e.bits / 2) a ∧ AddrIs E r.family (e.addr.drop ((e.bits / 2 + 7) / 8)) (e.bits / 2) m ∧ t = a ++ ascii "&" ++ m
  else AddrIs E r.family e.addr e.bits t

/-- The interface behind a percent sign unless it does not matter, the port or a star behind a colon. -/
def endRest (r : Route) (e : Endpoint) (pw iw : Nat) : List Byte :=
  (if r.flags.getLsbD iw then [] else ascii "%" ++ decimal e.iface) ++
  (if r.flags.getLsbD pw then ascii ":*" else ascii ":" ++ decimal e.port)

/-- The names of the flags, by bit. -/
def flagName : Nat → Option String
  | 0 => "*F" | 1 => "*RA" | 2 => "*Pr" | 3 => "*LP" | 4 => "*LA" | 5 => "*RP" | 6 => "*RI" | 7 => "*LI" | 8 => "*E" | 9 => "Tcplike"
  | 10 => "In" | 11 => "Out" | 12 => "BMR" | 13 => "BML" | 14 => "Res" | 15 => "D" | 16 => "Ins" | 17 => "Da" | 20 => "Pbox" | 21 => "Glist"
  | 22 => "NoHits" | 23 => "NoConnTrk" | 24 => "PortRst" | _ => none

/-- The flags that are set, by name, between braces. -/
def flagsText (flags : Flags) : List Byte :=
  ascii "{" ++ joined (ascii ",") (((List.range 32).filter fun k => flags.getLsbD k).filterMap fun k => (flagName k).map ascii) ++ ascii "}"

/-- From the family to the flags; `proto` is what is written for the protocol. -/
def lineEnd (E : Env) (r : Route) (proto : List Byte) (exports : Bool) : List Byte :=
  ascii ", AF = " ++ (if r.flags.getLsbD 0 then ascii "*" else match E.famName r.family with
    | some nm => nm
    | none => decimal r.family) ++
  proto ++
  ascii ", ev = " ++ (match r.event with
    | some e => ascii "\"" ++ e.label ++ ascii "\"" ++ (if r.flags.getLsbD 8 then ascii "[*]" else [])
    | none => if r.flags.getLsbD 8 then ascii "[*]" else ascii "(none)") ++
  ascii ", flags=" ++ flagsText r.flags ++
  (if exports then [] else ascii ", id=" ++ decimal r.id ++ ascii "\n")

/-- The protocol: a star, its name if the ports are TCP-like and it has one, or its number. -/
def protoText (E : Env) (r : Route) : List Byte :=
  ascii ", proto = " ++ (if r.flags.getLsbD 2 then ascii "*"
    else match (if r.flags.getLsbD 9 then E.proto r.proto else .unknown) with
      | .found nm => nm
      | _ => decimal r.proto)

/-- The line; `ra` and `la` are the texts of the remote and local addresses. -/
def line (E : Env) (r : Route) (ra la proto : List Byte) (exports : Bool) : List Byte :=
  ra ++ endRest r r.remote 5 6 ++
  ascii " " ++ (if r.flags.getLsbD 11 then ascii "<" else []) ++ ascii "-" ++ (if r.flags.getLsbD 10 then ascii ">" else []) ++ ascii " " ++
  la ++ endRest r r.loc 3 7 ++ lineEnd E r proto exports

/-- What has been written to one of several streams. -/
def textOn (here : Stream → Bool) (log : List (Stream × List Byte)) : List Byte :=
  ((log.filter fun e => here e.1).map (·.2)).flatten

/-- The caller's stream alone, or the caller's stream when it is standard output. -/
def onF : Stream → Bool
  | .f => true
  | _ => false
def onFIsOut : Stream → Bool
  | .f => true
  | .out => true
  | _ => false

end WS.Spec.Txt
