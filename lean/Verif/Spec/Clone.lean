import Verif.Model.Clone
/-
What a faithful clone is (property C45).  Only the data types of the model are used: heaps, objects,
contexts.
-/
namespace WS.Cl
open WS

def Pay.kind : Pay → Kind
  | .action _ => .actions
  | .event _ => .events
  | .route _ => .routes
  | .kv _ _ => .kvs
  | .afNum _ => .afNum
  | .afName _ => .afName

/-- All objects of a context. -/
def Ctx.objs (c : Ctx) : List Ptr :=
  (c.tab .actions).ents ++ (c.tab .afNum).ents ++ (c.tab .afName).ents ++ (c.tab .events).ents ++
    (c.tab .routes).ents ++ (c.tab .kvs).ents

/-- The counted references an object holds. -/
def Pay.refs : Pay → List Ptr
  | .event e => e.lists.post ++ e.lists.insert ++ e.lists.match_ ++ e.lists.update ++ e.lists.delete ++
      e.lists.decision ++ e.aux.toList
  | .route r => r.event.toList
  | _ => []

def Heap.refsOf (h : Heap) (p : Ptr) : List Ptr := match h.mem p with | some o => o.pay.refs | none => []

/-- All counted references held by the objects of a context and its rule table header. -/
def Ctx.held (h : Heap) (c : Ctx) : List Ptr := c.objs.flatMap h.refsOf ++ c.rt.defaultEvent.toList

/-- A well-formed source: what the API maintains (tables sorted, IDs unique and nonzero, families coupled:
C02, C04, C40), and every cross-reference goes to an object that is still in its table. -/
structure WF (H : Heap) (S : Ctx) : Prop where
  valid : ∀ k, ∀ p ∈ (S.tab k).ents, p < H.next ∧ ∃ o, H.mem p = some o ∧ o.pay.kind = k ∧ o.id ≠ 0
  nodup : ∀ k, (S.tab k).ents.Nodup
  ids : ∀ p ∈ S.objs, ∀ q ∈ S.objs, H.idOf p = H.idOf q → p = q
  sorted : ∀ k, k = .actions ∨ k = .events ∨ k = .afName → (S.tab k).ents.Pairwise (fun p q =>
    ∃ a b, H.label p = some a ∧ H.label q = some b ∧ labelCmp a b = .lt)
  byIdSorted : S.byId.Pairwise (fun p q => H.idOf p < H.idOf q)
  byIdAll : ∀ p, p ∈ S.byId ↔ p ∈ S.objs
  counts : ∀ k, (S.tab k).nEnts = (S.tab k).ents.length
  numbers : ∀ p ∈ (S.tab .afNum).ents, ∀ o a, H.mem p = some o → o.pay = .afNum a →
    a.name ∈ (S.tab .afName).ents ∧ ∃ o' b, H.mem a.name = some o' ∧ o'.pay = .afName b ∧ b.number = p
  names : ∀ q ∈ (S.tab .afName).ents, ∀ o b, H.mem q = some o → o.pay = .afName b →
    b.number ∈ (S.tab .afNum).ents ∧ ∃ o' a, H.mem b.number = some o' ∧ o'.pay = .afNum a ∧ a.name = q
  actionRefs : ∀ p ∈ (S.tab .events).ents, ∀ o e, H.mem p = some o → o.pay = .event e →
    e.lists.all (fun l => ∀ a ∈ l, a ∈ (S.tab .actions).ents)
  auxRefs : ∀ p ∈ (S.tab .events).ents, ∀ o e, H.mem p = some o → o.pay = .event e →
    ∀ x ∈ e.aux, x ∈ (S.tab .events).ents
  eventRefs : ∀ p ∈ (S.tab .routes).ents, ∀ o r, H.mem p = some o → o.pay = .route r →
    ∀ x ∈ r.event, x ∈ (S.tab .events).ents
  /-- the private data area of each rule has the size its event's configuration says -/
  private_ : ∀ p ∈ (S.tab .routes).ents, ∀ o r, H.mem p = some o → o.pay = .route r →
    r.off = (match r.event.bind H.mem with
      | some { pay := .event e, .. } => (e.config.getD S.config).config.privSize
      | _ => S.config.config.privSize)
  defaultRef : ∀ x ∈ S.rt.defaultEvent, x ∈ (S.tab .events).ents
  fallthroughOld : ∀ x ∈ S.rt.fallthrough, x < H.next

/-- The content of an object with its references renamed. -/
def Pay.rename (f : CloneFlags) (ρ : Ptr → Ptr) : Pay → Pay
  | .action a => .action { a with flags := if f.asAtCreation then a.flags0 else a.flags }
  | .event e => .event { e with lists := e.lists.map (List.map ρ), aux := e.aux.map ρ }
  | .route r => .route { r with event := r.event.map ρ }
  | .kv k v => .kv k v
  | .afNum a => .afNum { a with name := ρ a.name }
  | .afName a => .afName { a with number := ρ a.number }

/-- Which tables the flags ask for. -/
def CloneFlags.keeps (f : CloneFlags) : Kind → Bool
  | .actions | .afNum | .afName => true
  | .events | .kvs => !f.asAtCreation
  | .routes => !f.asAtCreation && !f.noRoutes

/-- The objects asked for. -/
def CloneFlags.kept (f : CloneFlags) (S : Ctx) (p : Ptr) : Prop := ∃ k, f.keeps k = true ∧ p ∈ (S.tab k).ents

/-- Context `D` in heap `H'` is a copy of context `S` in heap `H`: there is a renaming `ρ` of objects to
new objects under which every table, the ID index and every object of `S` is the one of `D`. -/
structure CopyOf (f : CloneFlags) (H : Heap) (S : Ctx) (H' : Heap) (D : Ctx) (ρ : Ptr → Ptr) : Prop where
  fresh : ∀ p, f.kept S p → H.next ≤ ρ p ∧ ρ p < H'.next
  inj : ∀ p q, f.kept S p → f.kept S q → ρ p = ρ q → p = q
  tables : ∀ k, f.keeps k = true → (D.tab k).ents = (S.tab k).ents.map ρ ∧ (D.tab k).nEnts = (S.tab k).nEnts
  others : ∀ k, f.keeps k = false → (D.tab k).ents = [] ∧ (D.tab k).nEnts = 0
  content : ∀ p, f.kept S p → ∃ o o', H.mem p = some o ∧ H'.mem (ρ p) = some o' ∧
    o'.id = o.id ∧ o'.hits = o.hits ∧ o'.pay = o.pay.rename f ρ
  /-- the ID index lists the copies, in the order of the source's index -/
  byId : ∃ B : List Ptr, B.Sublist S.byId ∧ (∀ p, p ∈ B ↔ f.kept S p) ∧ D.byId = B.map ρ ∧ D.nById = B.length

end WS.Cl
