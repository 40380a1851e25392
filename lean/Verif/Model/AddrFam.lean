import Verif.Model.Table
/-
Address families (src/addr_families.c, wolfsentry/wolfsentry_af.h), configuration with
`WOLFSENTRY_PROTOCOL_NAMES`.

The two coupled tables of a context (`addr_families_bynumber`, `addr_families_byname`) are tables 0
and 1 of a `Store`; tables 2, 3, ... stand for the other tables of the context, which share the ID
space.  The pointers `byname_ent` / `bynumber_ent` between the two objects of a family, and the
handler fields of the number object, are kept per object ID.  Not modelled here: allocation
failures, the lock (see `Model/LockBal.lean`), and the reference count of a family (its generic
behaviour is `Model/RefCount.lean`).
-/
namespace WS

/-- Keys of the tables: `number` for the first, `name`/`name_len` for the second
(src/wolfsentry_internal.h, `struct wolfsentry_addr_family_bynumber/byname`). -/
inductive AfKey where
  | num (n : Nat)
  | name (s : List Byte)
  deriving DecidableEq, Repr

/-- `wolfsentry_addr_family_bynumber_key_cmp` (src/addr_families.c:27-30: difference of two 16-bit
numbers in `int`, which cannot overflow) and `wolfsentry_addr_family_byname_key_cmp`
(src/addr_families.c:33-55, the same comparison as for labels).  The mixed cases never arise in C
because each table holds one kind; they are ordered arbitrarily. -/
def afCmp (_t : Nat) : AfKey → AfKey → Ordering
  | .num a, .num b => compare a b
  | .name a, .name b => labelCmp a b
  | .num _, .name _ => .lt
  | .name _, .num _ => .gt

/-- The handler fields of a family (parser and formatter as opaque tokens). -/
structure AfHandlers where
  parser : Nat
  formatter : Nat
  maxBits : Nat
  deriving DecidableEq, Repr

structure Af where
  store : Store AfKey := {}
  /-- `byname_ent` of the number object with this ID -/
  nameOf : Nat → Ent AfKey := fun _ => ⟨0, 1, .name []⟩
  /-- `bynumber_ent` of the name object with this ID -/
  numOf : Nat → Ent AfKey := fun _ => ⟨0, 0, .num 0⟩
  handlers : Nat → AfHandlers := fun _ => ⟨0, 0, 0⟩

abbrev tblNum : Nat := 0
abbrev tblName : Nat := 1

/-- Arguments of `wolfsentry_addr_family_handler_install`: `none` is a NULL pointer; the name is the
byte string designated by pointer and length (`strlen` when the length is negative). -/
structure AfArgs where
  number : Nat
  name : Option (List Byte)
  parser : Option Nat
  formatter : Option Nat
  maxBits : Int
  deriving Repr

/-- The argument checks of `wolfsentry_addr_family_insert` (src/addr_families.c:93-113). -/
def afCheck (a : AfArgs) : Except Err (List Byte × AfHandlers) :=
  if a.number = 0 then .error .invalidArg
  else match a.parser, a.formatter with
  | some p, some f =>
    if a.maxBits ≤ 0 ∨ a.maxBits > 128 then .error .invalidArg
    else match a.name with
    | none => .error .invalidArg
    | some nm =>
      if nm.length = 0 then .error .invalidArg
      else if nm.length > 32 then .error .stringArgTooLong
      else .ok (nm, ⟨p, f, a.maxBits.toNat⟩)
  | _, _ => .error .invalidArg

/-- `wolfsentry_addr_family_insert` (src/addr_families.c:73-183) after the argument checks: two IDs,
two table insertions, and the undo code at `out:` (166-180).  `wolfsentry_table_ent_insert` has
already released the ID of the object it refused. -/
def afInsertCore (s : Af) (number : Nat) (nm : List Byte) (h : AfHandlers) : Except Err Unit × Af :=
  match idAllocate s.store tblNum (.num number) with
  | (.error x, st) => (.error x, { s with store := st })
  | (.ok e1, st1) =>
    match idAllocate st1 tblName (.name nm) with
    | (.error x, st) => (.error x, { s with store := deleteById1 st e1 })
    | (.ok e2, st2) =>
      match tableInsert afCmp st2 e1 with
      | (.error x, st) => (.error x, { s with store := deleteById1 st e2 })
      | (.ok (), st3) =>
        match tableInsert afCmp st3 e2 with
        | (.error x, st) => (.error x, { s with store := tableDelete1 st e1 })
        | (.ok (), st4) =>
          (.ok (),
            { store := st4,
              nameOf := fun i => if i = e1.id then e2 else s.nameOf i,
              numOf := fun i => if i = e2.id then e1 else s.numOf i,
              handlers := fun i => if i = e1.id then h else s.handlers i })

/-- `wolfsentry_addr_family_handler_install` (src/addr_families.c:445-455). -/
def afInsert (s : Af) (a : AfArgs) : Except Err Unit × Af :=
  match afCheck a with
  | .error x => (.error x, s)
  | .ok (nm, h) => afInsertCore s a.number nm h

/-- `wolfsentry_addr_family_get_bynumber_1` (src/addr_families.c:186-211). -/
def afGetByNumber (s : Af) (number : Nat) : Except Err (Ent AfKey) :=
  tableGet afCmp s.store tblNum (.num number)

/-- `wolfsentry_addr_family_get_byname_1` (src/addr_families.c:259-300): finds the name object and
returns its number object. -/
def afGetByName (s : Af) (name : Option (List Byte)) : Except Err (Ent AfKey) :=
  match name with
  | none => .error .invalidArg
  | some nm =>
    if nm.length = 0 then .error .invalidArg
    else if nm.length > 32 then .error .stringArgTooLong
    else match tableGet afCmp s.store tblName (.name nm) with
      | .error x => .error x
      | .ok e => .ok (s.numOf e.id)

/-- The two unlinks of both delete functions (src/addr_families.c:405-411, 435-438). -/
def afDeletePair (s : Af) (e : Ent AfKey) : Af :=
  { s with store := tableDelete1 (tableDelete1 s.store e) (s.nameOf e.id) }

/-- `wolfsentry_addr_family_handler_remove_bynumber` (src/addr_families.c:394-417, 457-463). -/
def afDeleteByNumber (s : Af) (number : Nat) : Except Err Unit × Af :=
  match afGetByNumber s number with
  | .error x => (.error x, s)
  | .ok e => (.ok (), afDeletePair s e)

/-- `wolfsentry_addr_family_handler_remove_byname` (src/addr_families.c:420-443, 466-473). -/
def afDeleteByName (s : Af) (name : Option (List Byte)) : Except Err Unit × Af :=
  match afGetByName s name with
  | .error x => (.error x, s)
  | .ok e => (.ok (), afDeletePair s e)

/-- `wolfsentry_addr_family_get_parser` (src/addr_families.c:214-234). -/
def afGetParser (s : Af) (number : Nat) : Except Err Nat :=
  (afGetByNumber s number).map (fun e => (s.handlers e.id).parser)

/-- `wolfsentry_addr_family_get_formatter` (src/addr_families.c:236-256). -/
def afGetFormatter (s : Af) (number : Nat) : Except Err Nat :=
  (afGetByNumber s number).map (fun e => (s.handlers e.id).formatter)

/-- ASCII `tolower` (the C locale, as `strncasecmp` uses it). -/
def asciiLower (b : Byte) : Byte := if 65#8 ≤ b ∧ b ≤ 90#8 then b + 32#8 else b

/-- `strcaseeq` (wolfsentry/wolfsentry_util.h:80) against a literal, which has no zero bytes: equal
lengths, and every byte equal up to case (a zero byte inside the left string stops `strncasecmp`
only after it has been found different). -/
def strCaseEq (vs fs : List Byte) : Bool :=
  vs.length == fs.length && (vs.zip fs).all (fun p => asciiLower p.1 == asciiLower p.2)

/-- The built-in names of `wolfsentry_addr_family_pton` in source order
(src/addr_families.c:515-654, numbers from wolfsentry/wolfsentry_af.h:38-112). -/
def afBuiltinPton : List (List Byte × Nat) := [
  /- UNIX -/ ([85#8, 78#8, 73#8, 88#8], 1),
  /- LOCAL -/ ([76#8, 79#8, 67#8, 65#8, 76#8], 1),
  /- INET -/ ([73#8, 78#8, 69#8, 84#8], 2),
  /- AX25 -/ ([65#8, 88#8, 50#8, 53#8], 3),
  /- IPX -/ ([73#8, 80#8, 88#8], 4),
  /- APPLETALK -/ ([65#8, 80#8, 80#8, 76#8, 69#8, 84#8, 65#8, 76#8, 75#8], 5),
  /- NETROM -/ ([78#8, 69#8, 84#8, 82#8, 79#8, 77#8], 6),
  /- BRIDGE -/ ([66#8, 82#8, 73#8, 68#8, 71#8, 69#8], 7),
  /- ATMPVC -/ ([65#8, 84#8, 77#8, 80#8, 86#8, 67#8], 8),
  /- X25 -/ ([88#8, 50#8, 53#8], 9),
  /- INET6 -/ ([73#8, 78#8, 69#8, 84#8, 54#8], 10),
  /- ROSE -/ ([82#8, 79#8, 83#8, 69#8], 11),
  /- DECnet -/ ([68#8, 69#8, 67#8, 110#8, 101#8, 116#8], 12),
  /- NETBEUI -/ ([78#8, 69#8, 84#8, 66#8, 69#8, 85#8, 73#8], 13),
  /- SECURITY -/ ([83#8, 69#8, 67#8, 85#8, 82#8, 73#8, 84#8, 89#8], 14),
  /- KEY -/ ([75#8, 69#8, 89#8], 15),
  /- NETLINK -/ ([78#8, 69#8, 84#8, 76#8, 73#8, 78#8, 75#8], 16),
  /- ROUTE -/ ([82#8, 79#8, 85#8, 84#8, 69#8], 16),
  /- PACKET -/ ([80#8, 65#8, 67#8, 75#8, 69#8, 84#8], 17),
  /- ASH -/ ([65#8, 83#8, 72#8], 18),
  /- ECONET -/ ([69#8, 67#8, 79#8, 78#8, 69#8, 84#8], 19),
  /- ATMSVC -/ ([65#8, 84#8, 77#8, 83#8, 86#8, 67#8], 20),
  /- RDS -/ ([82#8, 68#8, 83#8], 21),
  /- SNA -/ ([83#8, 78#8, 65#8], 22),
  /- IRDA -/ ([73#8, 82#8, 68#8, 65#8], 23),
  /- PPPOX -/ ([80#8, 80#8, 80#8, 79#8, 88#8], 24),
  /- WANPIPE -/ ([87#8, 65#8, 78#8, 80#8, 73#8, 80#8, 69#8], 25),
  /- LLC -/ ([76#8, 76#8, 67#8], 26),
  /- IB -/ ([73#8, 66#8], 27),
  /- MPLS -/ ([77#8, 80#8, 76#8, 83#8], 28),
  /- CAN -/ ([67#8, 65#8, 78#8], 29),
  /- TIPC -/ ([84#8, 73#8, 80#8, 67#8], 30),
  /- BLUETOOTH -/ ([66#8, 76#8, 85#8, 69#8, 84#8, 79#8, 79#8, 84#8, 72#8], 31),
  /- IUCV -/ ([73#8, 85#8, 67#8, 86#8], 32),
  /- RXRPC -/ ([82#8, 88#8, 82#8, 80#8, 67#8], 33),
  /- ISDN -/ ([73#8, 83#8, 68#8, 78#8], 34),
  /- PHONET -/ ([80#8, 72#8, 79#8, 78#8, 69#8, 84#8], 35),
  /- IEEE802154 -/ ([73#8, 69#8, 69#8, 69#8, 56#8, 48#8, 50#8, 49#8, 53#8, 52#8], 36),
  /- CAIF -/ ([67#8, 65#8, 73#8, 70#8], 37),
  /- ALG -/ ([65#8, 76#8, 71#8], 38),
  /- NFC -/ ([78#8, 70#8, 67#8], 39),
  /- VSOCK -/ ([86#8, 83#8, 79#8, 67#8, 75#8], 40),
  /- KCM -/ ([75#8, 67#8, 77#8], 41),
  /- QIPCRTR -/ ([81#8, 73#8, 80#8, 67#8, 82#8, 84#8, 82#8], 42),
  /- SMC -/ ([83#8, 77#8, 67#8], 43),
  /- XDP -/ ([88#8, 68#8, 80#8], 44),
  /- IMPLINK -/ ([73#8, 77#8, 80#8, 76#8, 73#8, 78#8, 75#8], 103),
  /- PUP -/ ([80#8, 85#8, 80#8], 104),
  /- CHAOS -/ ([67#8, 72#8, 65#8, 79#8, 83#8], 105),
  /- NETBIOS -/ ([78#8, 69#8, 84#8, 66#8, 73#8, 79#8, 83#8], 106),
  /- ISO -/ ([73#8, 83#8, 79#8], 107),
  /- OSI -/ ([79#8, 83#8, 73#8], 107),
  /- ECMA -/ ([69#8, 67#8, 77#8, 65#8], 108),
  /- DATAKIT -/ ([68#8, 65#8, 84#8, 65#8, 75#8, 73#8, 84#8], 109),
  /- DLI -/ ([68#8, 76#8, 73#8], 113),
  /- LAT -/ ([76#8, 65#8, 84#8], 114),
  /- HYLINK -/ ([72#8, 89#8, 76#8, 73#8, 78#8, 75#8], 115),
  /- LINK -/ ([76#8, 73#8, 78#8, 75#8], 118),
  /- LINK48 -/ ([76#8, 73#8, 78#8, 75#8, 52#8, 56#8], 118),
  /- LINK64 -/ ([76#8, 73#8, 78#8, 75#8, 54#8, 52#8], 119),
  /- COIP -/ ([67#8, 79#8, 73#8, 80#8], 120),
  /- CNT -/ ([67#8, 78#8, 84#8], 121),
  /- SIP -/ ([83#8, 73#8, 80#8], 124),
  /- SLOW -/ ([83#8, 76#8, 79#8, 87#8], 133),
  /- SCLUSTER -/ ([83#8, 67#8, 76#8, 85#8, 83#8, 84#8, 69#8, 82#8], 134),
  /- ARP -/ ([65#8, 82#8, 80#8], 135),
  /- IEEE80211 -/ ([73#8, 69#8, 69#8, 69#8, 56#8, 48#8, 50#8, 49#8, 49#8], 137),
  /- INET_SDP -/ ([73#8, 78#8, 69#8, 84#8, 95#8, 83#8, 68#8, 80#8], 140),
  /- INET6_SDP -/ ([73#8, 78#8, 69#8, 84#8, 54#8, 95#8, 83#8, 68#8, 80#8], 142),
  /- HYPERV -/ ([72#8, 89#8, 80#8, 69#8, 82#8, 86#8], 143)]

/-- The cases of `wolfsentry_addr_family_ntop_1` in source order (src/addr_families.c:664-795). -/
def afBuiltinNtop : List (Nat × List Byte) := [
  /- UNSPEC -/ (0, [85#8, 78#8, 83#8, 80#8, 69#8, 67#8]),
  /- LOCAL -/ (1, [76#8, 79#8, 67#8, 65#8, 76#8]),
  /- INET -/ (2, [73#8, 78#8, 69#8, 84#8]),
  /- AX25 -/ (3, [65#8, 88#8, 50#8, 53#8]),
  /- IPX -/ (4, [73#8, 80#8, 88#8]),
  /- APPLETALK -/ (5, [65#8, 80#8, 80#8, 76#8, 69#8, 84#8, 65#8, 76#8, 75#8]),
  /- NETROM -/ (6, [78#8, 69#8, 84#8, 82#8, 79#8, 77#8]),
  /- BRIDGE -/ (7, [66#8, 82#8, 73#8, 68#8, 71#8, 69#8]),
  /- ATMPVC -/ (8, [65#8, 84#8, 77#8, 80#8, 86#8, 67#8]),
  /- X25 -/ (9, [88#8, 50#8, 53#8]),
  /- INET6 -/ (10, [73#8, 78#8, 69#8, 84#8, 54#8]),
  /- ROSE -/ (11, [82#8, 79#8, 83#8, 69#8]),
  /- DECnet -/ (12, [68#8, 69#8, 67#8, 110#8, 101#8, 116#8]),
  /- NETBEUI -/ (13, [78#8, 69#8, 84#8, 66#8, 69#8, 85#8, 73#8]),
  /- SECURITY -/ (14, [83#8, 69#8, 67#8, 85#8, 82#8, 73#8, 84#8, 89#8]),
  /- KEY -/ (15, [75#8, 69#8, 89#8]),
  /- ROUTE -/ (16, [82#8, 79#8, 85#8, 84#8, 69#8]),
  /- PACKET -/ (17, [80#8, 65#8, 67#8, 75#8, 69#8, 84#8]),
  /- ASH -/ (18, [65#8, 83#8, 72#8]),
  /- ECONET -/ (19, [69#8, 67#8, 79#8, 78#8, 69#8, 84#8]),
  /- ATMSVC -/ (20, [65#8, 84#8, 77#8, 83#8, 86#8, 67#8]),
  /- RDS -/ (21, [82#8, 68#8, 83#8]),
  /- SNA -/ (22, [83#8, 78#8, 65#8]),
  /- IRDA -/ (23, [73#8, 82#8, 68#8, 65#8]),
  /- PPPOX -/ (24, [80#8, 80#8, 80#8, 79#8, 88#8]),
  /- WANPIPE -/ (25, [87#8, 65#8, 78#8, 80#8, 73#8, 80#8, 69#8]),
  /- LLC -/ (26, [76#8, 76#8, 67#8]),
  /- IB -/ (27, [73#8, 66#8]),
  /- MPLS -/ (28, [77#8, 80#8, 76#8, 83#8]),
  /- CAN -/ (29, [67#8, 65#8, 78#8]),
  /- TIPC -/ (30, [84#8, 73#8, 80#8, 67#8]),
  /- BLUETOOTH -/ (31, [66#8, 76#8, 85#8, 69#8, 84#8, 79#8, 79#8, 84#8, 72#8]),
  /- IUCV -/ (32, [73#8, 85#8, 67#8, 86#8]),
  /- RXRPC -/ (33, [82#8, 88#8, 82#8, 80#8, 67#8]),
  /- ISDN -/ (34, [73#8, 83#8, 68#8, 78#8]),
  /- PHONET -/ (35, [80#8, 72#8, 79#8, 78#8, 69#8, 84#8]),
  /- IEEE802154 -/ (36, [73#8, 69#8, 69#8, 69#8, 56#8, 48#8, 50#8, 49#8, 53#8, 52#8]),
  /- CAIF -/ (37, [67#8, 65#8, 73#8, 70#8]),
  /- ALG -/ (38, [65#8, 76#8, 71#8]),
  /- NFC -/ (39, [78#8, 70#8, 67#8]),
  /- VSOCK -/ (40, [86#8, 83#8, 79#8, 67#8, 75#8]),
  /- KCM -/ (41, [75#8, 67#8, 77#8]),
  /- QIPCRTR -/ (42, [81#8, 73#8, 80#8, 67#8, 82#8, 84#8, 82#8]),
  /- SMC -/ (43, [83#8, 77#8, 67#8]),
  /- XDP -/ (44, [88#8, 68#8, 80#8]),
  /- IMPLINK -/ (103, [73#8, 77#8, 80#8, 76#8, 73#8, 78#8, 75#8]),
  /- PUP -/ (104, [80#8, 85#8, 80#8]),
  /- CHAOS -/ (105, [67#8, 72#8, 65#8, 79#8, 83#8]),
  /- NETBIOS -/ (106, [78#8, 69#8, 84#8, 66#8, 73#8, 79#8, 83#8]),
  /- ISO -/ (107, [73#8, 83#8, 79#8]),
  /- ECMA -/ (108, [69#8, 67#8, 77#8, 65#8]),
  /- DATAKIT -/ (109, [68#8, 65#8, 84#8, 65#8, 75#8, 73#8, 84#8]),
  /- DLI -/ (113, [68#8, 76#8, 73#8]),
  /- LAT -/ (114, [76#8, 65#8, 84#8]),
  /- HYLINK -/ (115, [72#8, 89#8, 76#8, 73#8, 78#8, 75#8]),
  /- LINK -/ (118, [76#8, 73#8, 78#8, 75#8]),
  /- COIP -/ (120, [67#8, 79#8, 73#8, 80#8]),
  /- CNT -/ (121, [67#8, 78#8, 84#8]),
  /- SIP -/ (124, [83#8, 73#8, 80#8]),
  /- SLOW -/ (133, [83#8, 76#8, 79#8, 87#8]),
  /- SCLUSTER -/ (134, [83#8, 67#8, 76#8, 85#8, 83#8, 84#8, 69#8, 82#8]),
  /- ARP -/ (135, [65#8, 82#8, 80#8]),
  /- IEEE80211 -/ (137, [73#8, 69#8, 69#8, 69#8, 56#8, 48#8, 50#8, 49#8, 49#8]),
  /- INET_SDP -/ (140, [73#8, 78#8, 69#8, 84#8, 95#8, 83#8, 68#8, 80#8]),
  /- INET6_SDP -/ (142, [73#8, 78#8, 69#8, 84#8, 54#8, 95#8, 83#8, 68#8, 80#8]),
  /- HYPERV -/ (143, [72#8, 89#8, 80#8, 69#8, 82#8, 86#8])]

/-- The built-in part of `wolfsentry_addr_family_pton` (src/addr_families.c:515-656): first match
wins. -/
def afPtonBuiltin (nm : List Byte) : Except Err Nat :=
  match afBuiltinPton.find? (fun p => strCaseEq nm p.1) with
  | some p => .ok p.2
  | none => .error .itemNotFound

/-- `wolfsentry_addr_family_ntop_1` (src/addr_families.c:659-799). -/
def afNtopBuiltin (n : Nat) : Except Err (List Byte) :=
  match afBuiltinNtop.find? (fun p => p.1 == n) with
  | some p => .ok p.2
  | none => .error .itemNotFound

/-- `number` of a number object. -/
def AfKey.number : AfKey → Nat
  | .num n => n
  | .name _ => 0

/-- `name` of a name object. -/
def AfKey.nameBytes : AfKey → List Byte
  | .num _ => []
  | .name s => s

/-- `wolfsentry_addr_family_pton` (src/addr_families.c:478-657): the context's own table first, if
it is not empty; any error other than "not found" is final. -/
def afPton (s : Af) (name : Option (List Byte)) : Except Err Nat :=
  match name with
  | none => .error .invalidArg
  | some nm =>
    if (s.store.tables tblName).nEnts > 0 then
      match afGetByName s (some nm) with
      | .ok e => .ok e.key.number
      | .error .itemNotFound => afPtonBuiltin nm
      | .error x => .error x
    else afPtonBuiltin nm

/-- `wolfsentry_addr_family_ntop` (src/addr_families.c:801-835).  `wantObj` says whether the caller
passed a non-NULL `addr_family`; only then is the context's own table searched. -/
def afNtop (s : Af) (n : Nat) (wantObj : Bool) : Except Err (List Byte) :=
  if wantObj = true ∧ (s.store.tables tblNum).nEnts > 0 then
    match afGetByNumber s n with
    | .ok e => .ok (s.nameOf e.id).key.nameBytes
    | .error .itemNotFound => afNtopBuiltin n
    | .error x => .error x
  else afNtopBuiltin n

/-- `wolfsentry_addr_family_max_addr_bits_1` (src/addr_families.c:839-868). -/
def afMaxBitsBuiltin (n : Nat) : Except Err Nat :=
  match n with
  | 2 => .ok 32
  | 4 => .ok 80
  | 5 => .ok 32
  | 10 => .ok 128
  | 31 => .ok 48
  | 137 => .ok 48
  | 118 => .ok 48
  | 119 => .ok 64
  | 29 => .ok 32
  | _ => .error .itemNotFound

/-- `wolfsentry_addr_family_max_addr_bits` (src/addr_families.c:870-894): built-in widths first. -/
def afMaxBits (s : Af) (n : Nat) : Except Err Nat :=
  match afMaxBitsBuiltin n with
  | .ok b => .ok b
  | .error _ => (afGetByNumber s n).map (fun e => (s.handlers e.id).maxBits)

/-- One call.  `otherInsert`/`otherDelete` are calls on other tables of the context (table
`t + 2`), which compete for IDs. -/
inductive AfOp where
  | install (a : AfArgs)
  | removeByNumber (n : Nat)
  | removeByName (name : Option (List Byte))
  | otherInsert (t : Nat) (k : List Byte)
  | otherDelete (t : Nat) (k : List Byte)

def afStep (s : Af) : AfOp → Except Err Unit × Af
  | .install a => afInsert s a
  | .removeByNumber n => afDeleteByNumber s n
  | .removeByName nm => afDeleteByName s nm
  | .otherInsert t k =>
    ((storeInsert afCmp s.store (t + 2) (.name k)).1.map (fun _ => ()),
     { s with store := (storeInsert afCmp s.store (t + 2) (.name k)).2 })
  | .otherDelete t k =>
    ((tableDelete afCmp s.store (t + 2) (.name k)).1.map (fun _ => ()),
     { s with store := (tableDelete afCmp s.store (t + 2) (.name k)).2 })

/-- The state after a history of calls on a fresh context. -/
def afRun (ops : List AfOp) : Af := ops.foldl (fun s op => (afStep s op).2) {}

end WS
