import Verif.Model.Definition

/-
Model of the exported graph containers /repo/pkg/types/map_graph.go and /repo/pkg/types/graph.go.
A graph is modelled by the contents of its maps, built by `New`/`NewMapDiGraph` (a zero-valued graph, whose
maps are nil, panics on the first write and is not modelled).  Stored nodes and edges are values: writes
to a stored `*GraphNode`/`*GraphEdge` through the caller's pointer are not modelled.
-/

namespace Zanzi

/-- `m[k]` with its `ok` flag. -/
def GoMap.get {V : Type} (m : GoMap V) (k : String) : Option V := kvGet m.entries k

/-- `make(map[string]V)`. -/
def GoMap.empty {V : Type} : GoMap V := ⟨[], .nil⟩

/-- `m[k] = v`. -/
def GoMap.set {V : Type} (m : GoMap V) (k : String) (v : V) : GoMap V where
  entries := (k, v) :: kvDel m.entries k
  nodup := by
    rw [List.map_cons, List.nodup_cons]
    constructor
    · intro h
      obtain ⟨p, hp, he⟩ := List.mem_map.1 h
      simp [kvDel] at hp
      exact hp.2 he
    · exact List.Nodup.sublist (List.Sublist.map _ List.filter_sublist) m.nodup

/-- Keys of a map in iteration order (`for key := range m`). -/
def GoMap.keys (o : RangeOrder) {V : Type} (m : GoMap V) : List String := o.visit (m.entries.map (·.1))

/-- `MapGraph` — map_graph.go:8-12. -/
structure MapGraph (T : Type) where
  nodes : GoMap T
  forwardEdges : GoMap (GoMap Unit)
  backwardEdges : GoMap (GoMap Unit)

namespace MapGraph

variable {T : Type}

/-- `New` — map_graph.go:14-20. -/
def new : MapGraph T := ⟨.empty, .empty, .empty⟩

/-- `SetNode` — map_graph.go:23-25. -/
def setNode (g : MapGraph T) (id : String) (node : T) : MapGraph T := { g with nodes := g.nodes.set id node }

/-- `GetNode` — map_graph.go:28-34; `types.Option` (option.go) is `Option`. -/
def getNode (g : MapGraph T) (id : String) : Option T := g.nodes.get id

/-- `getNodesFromEdges` — map_graph.go:46-53; a missing key reads as the zero value, here `default`. -/
def getNodesFromEdges [Inhabited T] (o : RangeOrder) (g : MapGraph T) (edges : GoMap Unit) : List T :=
  (edges.keys o).map (fun key => (g.nodes.get key).getD default)

/-- `GetAncestors` — map_graph.go:38-44. -/
def getAncestors [Inhabited T] (o : RangeOrder) (g : MapGraph T) (id : String) : List T :=
  match g.backwardEdges.get id with
  | none => []
  | some edgeMap => g.getNodesFromEdges o edgeMap

/-- `GetSucessors` — map_graph.go:57-63. -/
def getSucessors [Inhabited T] (o : RangeOrder) (g : MapGraph T) (id : String) : List T :=
  match g.forwardEdges.get id with
  | none => []
  | some edgeMap => g.getNodesFromEdges o edgeMap

/-- `SetEdge` — map_graph.go:67-93: the error text, if any, and the graph left behind. -/
def setEdge (g : MapGraph T) (sourceId destId : String) : Option String × MapGraph T :=
  if (g.getNode sourceId).isNone then (some ("node not found: " ++ sourceId), g)
  else if (g.getNode destId).isNone then (some ("node not found: " ++ destId), g)
  else
    let sourceEdgMap := (g.forwardEdges.get sourceId).getD .empty
    let destEdgMap := (g.backwardEdges.get destId).getD .empty
    (none, { g with
      forwardEdges := g.forwardEdges.set sourceId (sourceEdgMap.set destId ())
      backwardEdges := g.backwardEdges.set destId (destEdgMap.set sourceId ()) })

end MapGraph

/-- graph.proto `GraphNode`. -/
structure GraphNode where
  id : String
  data : String
  deriving DecidableEq, Repr

/-- graph.proto `GraphEdge`. -/
structure GraphEdge where
  source : String
  dest : String
  label : String
  deriving DecidableEq, Repr

/-- graph.proto `MapDiGraph`; an `EdgeMap` is its map. -/
structure MapDiGraph where
  nodes : GoMap GraphNode
  forwardEdges : GoMap (GoMap GraphEdge)
  backEdges : GoMap (GoMap GraphEdge)

namespace MapDiGraph

/-- `NewMapDiGraph` — graph.go:9-15. -/
def new : MapDiGraph := ⟨.empty, .empty, .empty⟩

/-- `AddNode` — graph.go:17-19; a nil node panics on the field read. -/
def addNode (g : MapDiGraph) : Option GraphNode → Res MapDiGraph
  | none => .panic
  | some node => .ok { g with nodes := g.nodes.set node.id node }

/-- `AddEdge` — graph.go:21-38; a nil edge panics on the first field read. -/
def addEdge (g : MapDiGraph) : Option GraphEdge → Res MapDiGraph
  | none => .panic
  | some edg => .ok { g with
      forwardEdges := g.forwardEdges.set edg.source (((g.forwardEdges.get edg.source).getD .empty).set edg.dest edg)
      backEdges := g.backEdges.set edg.dest (((g.backEdges.get edg.dest).getD .empty).set edg.source edg) }

/-- `GetNode` — graph.go:40-46; nil is `none`. -/
def getNode (g : MapDiGraph) (id : String) : Option GraphNode := g.nodes.get id

/-- `wrap` — graph.go:75-77. -/
def wrap (txt : String) : String := "\"" ++ txt ++ "\""

/-- `strings.ReplaceAll(id, "\"", "\\\"")` — graph.go:71. -/
def escape : List Char → List Char
  | [] => []
  | '"' :: cs => '\\' :: '"' :: escape cs
  | c :: cs => c :: escape cs

/-- `mapId` — graph.go:70-73. -/
def mapId (id : String) : String := wrap (String.ofList (escape id.toList))

/-- A call `GraphToDOT` makes on the gographviz graph. -/
inductive Draw where
  | node (id label : String)
  | edge (src dst : String)
  deriving DecidableEq, Repr

/-- `GraphToDOT` — graph.go:49-68, as the calls made on the gographviz graph.  `o` orders the outer maps and `inner` the edge
map of each source; the errors gographviz returns are ignored by the code, and its text output is not modelled. -/
def toDOT (o : RangeOrder) (inner : String → RangeOrder) (g : MapDiGraph) : List Draw :=
  (g.nodes.range o).map (fun node => .node (mapId node.id) (wrap node.data)) ++
  (g.forwardEdges.keys o).flatMap (fun src =>
    (((g.forwardEdges.get src).getD .empty).keys (inner src)).map (fun dst => .edge (mapId src) (mapId dst)))

end MapDiGraph

end Zanzi
