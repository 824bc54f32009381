/-
Model of the graph that the exploration records and draws: /repo/tool/kalm/merging.py:112-191 (`record_step`,
`record_merge`, `graph_as_dot`), the labels of states that return (merging.py:232-243) and the numbers of states
(/repo/tool/kalm/plugins/marker.py).

A state of the exploration is here its number, given by the marker, and where it matters its list of constraints; of a
constraint, which Python compares with `is`, its identity, that of its argument if it is a negation, and its text. The
times in labels are given. Of the text that is drawn, the model has the edges and the nodes with a double border. An
exception is `none`.
-/
set_option autoImplicit false

namespace Verif.Tool.Graph

/-- A constraint: its identity, the identity of what it negates if its operation is Not, and its text
(utils.pretty_print). -/
structure Con where
  id : Nat
  negates : Option Nat
  text : String

/-- `history.recent_description` of a state after a step: of a block at an address, of an external procedure, or other. Only
those of procedures contain "SimProcedure". -/
inductive Desc where
  | irsb (address : String)
  | procedure (name : String)
  | other

structure Edge where
  src : Nat
  dst : Nat
  label : String

/-- merging.py:112-113 `state_graph_nodes` and `state_graph_edges`, and marker.py:3 `marker_counter`. -/
structure Graph where
  counter : Nat
  nodes : List (Nat × String)
  edges : List Edge

/-- Python's `nodes[id] = label`. -/
def put (nodes : List (Nat × String)) (id : Nat) (label : String) : List (Nat × String) :=
  if nodes.any (fun n => n.1 == id) then nodes.map fun n => if n.1 == id then (id, label) else n else nodes ++ [(id, label)]

/-- merging.py:127-136: the label of a node. -/
def nodeLabel (d : Desc) (time : String) : String :=
  match d with
  | .irsb address => "Branch: " ++ address ++ "\n" ++ time
  | .procedure name => name ++ "\n" ++ time
  | .other => time

/-- merging.py:141, the condition of the loop: whether all states have the same constraint at an index as the first one; an
exception if a list is too short. -/
def agreeAt (first : List Con) : List (List Con) → Nat → Option Bool
  | [], _ => some true
  | s :: ss, i =>
    match s[i]?, first[i]? with
    | some a, some b => if a.id = b.id then agreeAt first ss i else some false
    | _, _ => none

/-- merging.py:140-142, from an index on, at most so many steps. -/
def divergence (first : List Con) (rest : List (List Con)) : Nat → Nat → Option Nat
  | 0, _ => none
  | fuel + 1, i =>
    match agreeAt first rest i with
    | none => none
    | some false => some i
    | some true => divergence first rest fuel (i + 1)

/-- merging.py:143-146: two states are exchanged if the constraint of the first is the negation of that of the second. -/
def order (d : Nat) (news : List (Nat × List Con)) : List (Nat × List Con) :=
  match news with
  | [a, b] =>
    match a.2[d]?, b.2[d]? with
    | some x, some y => if x.negates = some y.id then [b, a] else [a, b]
    | _, _ => [a, b]
  | _ => news

/-- merging.py:148-153: the labels of the edges to several states: none for the second of two. -/
def labelOf (count d n : Nat) (st : Nat × List Con) : Option String :=
  if count = 2 ∧ n ≠ 0 then some "" else st.2[d]?.map Con.text

/-- merging.py:148-153: the edges to several states. -/
def edgesTo (orig count d : Nat) : Nat → List (Nat × List Con) → Option (List Edge)
  | _, [] => some []
  | n, st :: sts =>
    match labelOf count d n st with
    | none => none
    | some label => match edgesTo orig count d (n + 1) sts with
      | none => none
      | some es => some (⟨orig, st.1, label⟩ :: es)

/-- New numbers for states: marker.py:21-24 `increment_id`, one after the other. -/
def number (counter : Nat) (news : List (List Con)) : List (Nat × List Con) :=
  match news with
  | [] => []
  | c :: cs => (counter, c) :: number (counter + 1) cs

/-- merging.py:116-153 `record_step`, given the constraints of the new states: the graph and the numbers of these states. -/
def recordStep (g : Graph) (orig : Nat) (d : Desc) (time : String) (news : List (List Con)) : Option (Graph × List Nat) :=
  match news with
  | [] => some (g, [])
  | [_] =>
    match d with
    | .procedure _ => some (⟨g.counter + 1, put g.nodes orig (nodeLabel d time), g.edges ++ [⟨orig, g.counter, ""⟩]⟩, [g.counter])
    | _ => some (g, [orig])
  | first :: rest =>
    match divergence first rest (first.length + 1) 0 with
    | none => none
    | some k =>
      let sts := number g.counter (first :: rest)
      match edgesTo orig sts.length k 0 (order k sts) with
      | none => none
      | some es => some (⟨g.counter + sts.length, put g.nodes orig (nodeLabel d time), g.edges ++ es⟩, sts.map (·.1))

/-- merging.py:155-160 `record_merge`: the graph and the number of the merged state. -/
def recordMerge (g : Graph) (ids : List Nat) : Graph × Nat :=
  (⟨g.counter + 1, g.nodes, g.edges ++ ids.map fun id => ⟨id, g.counter, ""⟩⟩, g.counter)

/-! ### The exploration -/

/-- What happens to the graph in a step of the exploration (merging.py:194-275): a state is stepped (line 208), one that has
just returned is labelled (line 239 or 242), states are merged (line 271). -/
inductive Event where
  | step (orig : Nat) (d : Desc) (time : String) (news : List (List Con))
  | ret (id : Nat) (label : String)
  | merge (ids : List Nat)

/-- The graph and the numbers of the states that are active or deferred. -/
structure Expl where
  graph : Graph
  live : List Nat

/-- One event; `none` for an exception, and if the states are not among those being explored. Several different states are merged: for
one, merge_states returns None (merging.py:62-64). -/
def Expl.apply (e : Expl) : Event → Option Expl
  | .step orig d time news =>
    if orig ∈ e.live then
      match recordStep e.graph orig d time news with
      | none => none
      | some (g, ids) => some ⟨g, e.live.erase orig ++ ids⟩
    else none
  | .ret id label => if id ∈ e.live then some ⟨{ e.graph with nodes := put e.graph.nodes id label }, e.live⟩ else none
  | .merge ids =>
    if 2 ≤ ids.length ∧ ids.Nodup ∧ ∀ id ∈ ids, id ∈ e.live then
      let r := recordMerge e.graph ids
      some ⟨r.1, e.live.filter (fun l => !ids.contains l) ++ [r.2]⟩
    else none

/-- Several events. -/
def Expl.run (e : Expl) : List Event → Option Expl
  | [] => some e
  | ev :: evs =>
    match e.apply ev with
    | none => none
    | some e => e.run evs

/-- merging.py:108-114 and executor.py:68-71: the start of an exploration of one state. -/
def start (counter root : Nat) : Expl := ⟨⟨counter, [], []⟩, [root]⟩

/-! ### Drawing -/

/-- merging.py:166 and 169, `n not in self.state_graph_nodes`. -/
def Graph.unlabelled (g : Graph) (n : Nat) : Bool := !g.nodes.any fun x => x.1 == n

/-- merging.py:167: the edges into a node. -/
def Graph.into (g : Graph) (n : Nat) : List Edge := g.edges.filter fun x => x.dst == n

/-- merging.py:171: the edges out of a node. -/
def Graph.out (g : Graph) (n : Nat) : List Edge := g.edges.filter fun x => x.src == n

/-- merging.py:166-168: whether an edge is left out. -/
def Graph.leftOut (g : Graph) (x : Edge) : Bool := g.unlabelled x.src && (g.into x.src).length == 1

/-- merging.py:169-173: where an edge ends. -/
def Graph.endOf (g : Graph) (n : Nat) : Nat :=
  if g.unlabelled n then
    match g.out n with
    | [x] => x.dst
    | _ => n
  else n

/-- merging.py:164-174: the edges that are drawn. -/
def Graph.drawn (g : Graph) : List Edge :=
  (g.edges.filter fun x => !g.leftOut x).map fun x => { x with dst := g.endOf x.dst }

/-- merging.py:182-183: the nodes with a double border. -/
def Graph.doubled (g : Graph) (n : Nat) : Bool := g.drawn.any (fun x => x.dst == n) && !g.drawn.any fun x => x.src == n

end Verif.Tool.Graph
