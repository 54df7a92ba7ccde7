import Verif.Dump.Model
import Verif.Pose.Model

/-!
# Model of the auxiliary nodes and viewers

The bag adapter (src/ros/wg_pr2_bag_adapter.cpp), the path publisher (src/ros/path_publisher.cpp), the console view of
a map (src/utils/console_view.h) and the viewer of pose graphs (src/slams/graph/rviz_graph_viewer.h).
-/

set_option autoImplicit false
set_option linter.unusedSectionVars false

namespace Slam.Nodes

open Slam.Grid Slam.Dump Slam.Poses

/-! ## Bag adapter -/

/-- `geometry_msgs::TransformStamped`: frames are strings, `B` is everything else (stamp, sequence number,
transform). -/
structure Trans (B : Type*) where
  parent : String
  child : String
  body : B
  deriving DecidableEq

/-- `nav_msgs::OccupancyGrid`: the frame of the header, and everything else. -/
structure OccGrid (G : Type*) where
  frame : String
  body : G
  deriving DecidableEq

/-- What the adapter's main thread does, one after another: a callback of `spinOnce`, or the publication of the loop,
wg_pr2_bag_adapter.cpp:58-62. -/
inductive Event (B G : Type*) where
  | tf (ts : List (Trans B))
  | grid (g : OccGrid G)
  | tick

/-- The global variables (wg_pr2_bag_adapter.cpp:14-17; `gt2map_transform` counts only if `gt2map_is_initialized`),
and what was sent and published. -/
structure Adapter (B G : Type*) where
  grid : OccGrid G
  first : Option (Trans B)
  sent : List (Trans B)
  published : List (OccGrid G)

variable {B G : Type*}

/-- `on_gt_grid`, wg_pr2_bag_adapter.cpp:19-22. -/
def Adapter.onGrid (a : Adapter B G) (g : OccGrid G) : Adapter B G := { a with grid := { g with frame := "provided_map" } }

/-- Body of the loop of `on_tf_msg`, wg_pr2_bag_adapter.cpp:31-46; `mapId`, `odomId` are the static strings of lines
27-28. -/
def Adapter.onTransform (mapId odomId : String) (a : Adapter B G) (t : Trans B) : Adapter B G :=
  if t.parent ≠ mapId ∨ t.child ≠ odomId then { a with sent := a.sent ++ [t] }
  else
    let f : Trans B :=
      match a.first with
      | some f => f
      | none => { t with parent := "/provided_map", child := "/map" }
    { a with first := some f, sent := a.sent ++ [f] }

/-- One event. -/
def Adapter.step (mapId odomId : String) (a : Adapter B G) : Event B G → Adapter B G
  | .tf ts => ts.foldl (Adapter.onTransform mapId odomId) a
  | .grid g => a.onGrid g
  | .tick => { a with published := a.published ++ [a.grid] }

/-- The start: `provided_grid` is a default message. -/
def Adapter.start (dflt : OccGrid G) : Adapter B G := ⟨dflt, none, [], []⟩

/-- A run of the node. -/
def Adapter.run (mapId odomId : String) (dflt : OccGrid G) (es : List (Event B G)) : Adapter B G :=
  es.foldl (Adapter.step mapId odomId) (Adapter.start dflt)

/-! ## Path publisher -/

/-- `tf::StampedTransform` as far as it is read: frame, stamp, origin. -/
structure Looked (K T : Type*) where
  frame : String
  stamp : T
  x : K
  y : K
  z : K

/-- `geometry_msgs::PoseStamped`: `quat` are the components x, y, z, w of the orientation. -/
structure PoseMsg (K T : Type*) where
  frame : String
  stamp : T
  x : K
  y : K
  z : K
  quat : K × K × K × K

/-- `nav_msgs::Path`. -/
structure Path (K T : Type*) where
  frame : String
  stamp : T
  poses : List (PoseMsg K T)

variable {K T : Type*} [Zero K] [Zero T]

/-- `geometry_msgs::PoseStamped()`: all zero. -/
def PoseMsg.dummy : PoseMsg K T := ⟨"", 0, 0, 0, 0, (0, 0, 0, 0)⟩

/-- The message filled from a transform, path_publisher.cpp:60-64: `z` and the orientation keep their defaults. -/
def Looked.toPose (l : Looked K T) : PoseMsg K T :=
  { (PoseMsg.dummy : PoseMsg K T) with frame := l.frame, stamp := l.stamp, x := l.x, y := l.y }

/-- `get_current_pose`, path_publisher.cpp:47-75. `look i` is the outcome of attempt `i` (`none`: a
`tf::TransformException`); the first `oks` tests of `ros::ok()` succeed, the later ones fail. Results: the pose, the
tests that still succeed, the number of the next attempt. -/
def currentPose (look : Nat → Option (Looked K T)) : Nat → Nat → PoseMsg K T × Nat × Nat
  | 0, i => (PoseMsg.dummy, 0, i)
  | oks + 1, i =>
    match look i with
    | some l => (l.toPose, oks, i + 1)
    | none => currentPose look oks (i + 1)

theorem currentPose_oks (look : Nat → Option (Looked K T)) (oks i : Nat) : (currentPose look oks i).2.1 ≤ oks := by
  induction oks generalizing i with
  | zero => simp [currentPose]
  | succ n ih =>
    simp only [currentPose]
    cases look i with
    | none => have := ih (i + 1); simp only; omega
    | some v => simp

/-- The loop of `main`, path_publisher.cpp:88-97: `path` is the message so far, the result are the messages published.
`node_handle.ok()` is another test of the same kind. -/
def pathLoop (look : Nat → Option (Looked K T)) (oks i : Nat) (path : Path K T) : List (Path K T) :=
  match oks with
  | 0 => []
  | oks + 1 =>
    let r := currentPose look oks i
    let path' : Path K T := { path with stamp := r.1.stamp, poses := path.poses ++ [r.1] }
    path' :: pathLoop look r.2.1 r.2.2 path'
termination_by oks
decreasing_by
  have := currentPose_oks look oks i
  omega

/-- The node, path_publisher.cpp:78-100. -/
def pathNode (mapFrame : String) (look : Nat → Option (Looked K T)) (oks : Nat) : List (Path K T) :=
  pathLoop look oks 0 ⟨mapFrame, 0, []⟩

/-! ## Console view -/

section Console

variable {K : Type*} [Field K] [LinearOrder K] [IsStrictOrderedRing K] [FloorRing K]

/-- `for (i = from; i <= last; ++i)`. -/
def upTo (from_ last : Int) : List Int := up from_ (last + 1)

/-- The character of a cell, console_view.h:15-26. -/
def symbol (center coord : Coord) (occ : K) : Char :=
  if center = coord then 'C'
  else if 3 / 4 < occ then '#'
  else if occ < 1 / 4 then '.'
  else '~'

/-- `show_grid_map`, console_view.h:4-31: the text printed. `occ` is `map[coord]`. -/
def showMap (scale : K) (occ : Coord → K) (cx cy dxLeft dxRight dyUp dyDown : K) : List Char :=
  let center := worldToCell scale ⟨cx, cy⟩
  let topLeft := worldToCell scale ⟨dxLeft, dyUp⟩
  let botRight := worldToCell scale ⟨dxRight, dyDown⟩
  (down topLeft.y (-botRight.y)).flatMap fun dy =>
    ((upTo (-topLeft.x) botRight.x).map fun dx =>
      symbol center ⟨center.x + dx, center.y + dy⟩ (occ ⟨center.x + dx, center.y + dy⟩)) ++ ['\n']

end Console

/-! ## Graph viewer -/

section Viewer

variable {K : Type*} [Field K] [LinearOrder K] [IsStrictOrderedRing K]

/-- `geometry_msgs::Point`. -/
structure Pt (K : Type*) where
  x : K
  y : K
  z : K
  deriving DecidableEq

/-- `make_2D_point`, rviz_graph_viewer.h:96-103. -/
def make2D (p : Pose K) : Pt K := ⟨p.x, p.y, 0⟩

/-- Points of the marker of `create_nodes_marker`, rviz_graph_viewer.h:40-63. Colours, scales, name spaces and stamps
are not part of the model. -/
def nodePoints (g : Graph K) : List (Pt K) := g.nodes.map fun n => make2D n.pose

/-- Points of the marker of `create_edges_marker`, rviz_graph_viewer.h:65-94; `none`: a dangling pointer. -/
def edgePoints (g : Graph K) : Option (List (Pt K)) :=
  (g.edges.mapM fun (e : Edge K) => do
    let f ← g.nodes[e.source]?
    let t ← g.nodes[e.target]?
    pure [make2D f.pose, make2D t.pose]).map List.flatten

/-- The viewer: `_last_pub_time`, and the time and content of the messages published. -/
structure Viewer (K : Type*) where
  last : K
  sent : List (K × List (Pt K) × List (Pt K))

/-- `on_map_update`, rviz_graph_viewer.h:23-34: `checked` and `stored` are the values of `ros::Time::now()` in the
first and in the last statement. -/
def Viewer.onMapUpdate (v : Viewer K) (g : Graph K) (checked stored : K) : Option (Viewer K) :=
  if checked - v.last < 3 then some v
  else (edgePoints g).map fun es => ⟨stored, v.sent ++ [(checked, nodePoints g, es)]⟩

end Viewer

end Slam.Nodes
