import Verif.Rect.Model

/-!
# Model of `src/core/states/robot_pose.h` and of the pose graph (`src/slams/graph`)
-/

set_option autoImplicit false

namespace Slam.Poses
open Slam.Grid Slam.Rect

/-- `RobotPose` (robot_pose.h:96-136) and `RobotPoseDelta` (robot_pose.h:10-64): the same three fields. -/
@[ext] structure Pose (K : Type*) where
  x : K
  y : K
  theta : K
  deriving DecidableEq

/-- Pose deltas. -/
abbrev Delta (K : Type*) := Pose K

variable {K : Type*} [Field K] [LinearOrder K] [IsStrictOrderedRing K]

/-- Default constructors, robot_pose.h:12 and 101. -/
def Pose.zero : Pose K := ⟨0, 0, 0⟩
/-- `RobotPose::operator+` (120-122), `operator+=` (124-131), `RobotPoseDelta::operator+=` (18-23) and
`operator+` (30-32). -/
def Pose.add (p d : Pose K) : Pose K := ⟨p.x + d.x, p.y + d.y, p.theta + d.theta⟩
/-- `RobotPose::operator-`, robot_pose.h:116-118. -/
def Pose.sub (p q : Pose K) : Delta K := ⟨p.x - q.x, p.y - q.y, p.theta - q.theta⟩
/-- `RobotPoseDelta::operator-`, robot_pose.h:34-36. -/
def Pose.neg (d : Delta K) : Delta K := ⟨-d.x, -d.y, -d.theta⟩
/-- `RobotPoseDelta::abs`, robot_pose.h:48-50. -/
def Pose.abs (d : Delta K) : Delta K := ⟨|d.x|, |d.y|, |d.theta|⟩
/-- `RobotPoseDelta::sq_dist`, robot_pose.h:51. -/
def Pose.sqDist (d : Delta K) : K := d.x * d.x + d.y * d.y
/-- `is_abs_less`, robot_pose.h:38-43. -/
def Pose.isAbsLess (d t : Delta K) : Bool :=
  decide (|d.x| < |t.x|) && decide (|d.y| < |t.y|) && decide (|d.theta| < |t.theta|)
/-- `RobotPoseDelta::operator==`, robot_pose.h:25-28. -/
def Pose.tolEq (a b : Delta K) : Bool := areEqual a.x b.x && areEqual a.y b.y && areEqual a.theta b.theta
/-- `RobotPoseDelta::operator bool`, robot_pose.h:44-46. -/
def Pose.toBool (d : Delta K) : Bool := !areEqual d.x 0 || !areEqual d.y 0 || !areEqual d.theta 0

/-! ## Pose graph -/

/-- `PoseGraphEdge`, pose_graph_map.h:19-25; nodes are identified by their index in `_nodes`. -/
structure Edge (K : Type*) where
  source : Nat
  target : Nat
  delta : Delta K

/-- `PoseGraphNode`, pose_graph_map.h:27-31 (`edges` holds indices into the graph's edge vector; the scan is
irrelevant to the graph's structure). -/
structure Node (K : Type*) where
  pose : Pose K
  edges : List Nat

/-- `PoseGraphMap`, pose_graph_map.h:39-130. -/
structure Graph (K : Type*) where
  current : Option Nat
  nodes : List (Node K)
  edges : List (Edge K)

/-- `PoseGraphMap()`, pose_graph_map.h:44. -/
def Graph.empty : Graph K := ⟨none, [], []⟩

/-- `n->edges.push_back(e)`, pose_graph_map.h:120-121. -/
def linkEdge (nodes : List (Node K)) (n e : Nat) : List (Node K) :=
  nodes.modify n fun nd => { nd with edges := nd.edges ++ [e] }

/-- `add_edge(n1, n2)`, pose_graph_map.h:118-124. -/
def Graph.addEdge (g : Graph K) (n1 n2 : Nat) : Option (Graph K) :=
  (g.nodes[n1]?).bind fun a => (g.nodes[n2]?).map fun b =>
    let e := g.edges.length
    { g with nodes := linkEdge (linkEdge g.nodes n1 e) n2 e
             edges := g.edges ++ [⟨n1, n2, a.pose.sub b.pose⟩] }

/-- `add_node`, pose_graph_map.h:46-67 (`close_loop` always returns false, lines 75-99). -/
def Graph.addNode (g : Graph K) (p : Pose K) : Option (Graph K) :=
  let new := g.nodes.length
  let g : Graph K := { g with nodes := g.nodes ++ [⟨p, []⟩] }
  match g.current with
  | none => some { g with current := some new }
  | some cur => (g.addEdge new cur).map fun g => { g with current := some new }

/-- A history of node creations. -/
def Graph.build : Graph K → List (Pose K) → Option (Graph K)
  | g, [] => some g
  | g, p :: ps => (g.addNode p).bind fun g => g.build ps

/-- `NodeCreationOracle::is_node_creation_required`, graph_slam_world.h:18-27: the new accumulator and the
answer. -/
def oracle (limit acc d : Delta K) : Delta K × Bool :=
  let acc := acc.add d
  if acc.isAbsLess limit then (acc, false) else (Pose.zero, true)

/-- The oracle over a history of motions. -/
def oracleRun (limit : Delta K) : Delta K → List (Delta K) → List Bool
  | _, [] => []
  | acc, d :: ds => let r := oracle limit acc d; r.2 :: oracleRun limit r.1 ds

end Slam.Poses
