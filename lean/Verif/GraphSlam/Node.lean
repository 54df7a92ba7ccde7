import Verif.GraphSlam.Total
import Verif.Nodes.Views
import Verif.Online.Props
import Verif.Whole.MachineLaunch

/-!
# C110: the node of the graph SLAM

`main` of src/slams/graph/graph_demo.cpp (switched off in CMakeLists.txt, as the world of C106): the SLAM made from the parameters,
and what happens when a scan is delivered. The parts shared with the other nodes are those of `Online.Model`; the map observer is
`RvizGraphViewer` (`Nodes.Viewer`).
-/

set_option autoImplicit false
set_option linter.unusedSectionVars false

namespace Slam.GraphSlam
open Slam.Config (Str Server Provider)
open Slam.Pub (Tr)
open Slam.Online (Setup Delivery Stamp planar pubPose setupOf found)
open Slam.Whole (Env)

/-! ## What is made from the parameters -/

/-- A graph SLAM with its start. -/
structure GraphProgram where
  T : Type
  cfg : GraphCfg T
  start : GraphSt T

/-- `init_graph_slam`, graph_demo.cpp:22-29, with the switch of the observer of scans (53-54). The size of a map is asked for but not
used; `scan_margin` is 0 (single_state_hypothesis_laser_scan_grid_world.h:16). `none`: an exception, or the multi-resolution matcher. -/
noncomputable def nodeGraph (rad : ℝ) (rnd : Nat) (env : Env) (sample : Int → Nat → ℝ → ℝ → Poses.Delta ℝ) (p : Provider ℝ)
    (skip : Bool) : Option GraphProgram :=
  (Provider.initMatcher rad rnd p).bind fun m =>
    (Provider.initAdder p).bind fun a =>
      (Provider.gridParams p).bind fun _ =>
        match m.spe.oope with
        | .std oope oie =>
          (Whole.matchingOf ⟨⟨m.spe.skipRate, m.spe.maxRange⟩, Whole.oopeOf oope, baseImpact (Whole.impactOf oie), env.cellFuel⟩ env.fuel
            sample m).map fun k =>
              ⟨k.T, ⟨Whole.adderOf env.shift a, env.ok, env.lineFuel, 0, k.machine, skip, env.tol⟩,
                GraphSt.start (Whole.histOf a) (Whole.spwOf m.spe.spw) k.state⟩
        | _ => none

/-- A message that is sent: a transform (`tf::StampedTransform`), or the graph (`visualization_msgs::MarkerArray`: the frame of both
markers, the points of the nodes, and the ends of the edges). -/
inductive Out where
  | transform (stamp : Stamp) (frame child : Str) (t : Tr)
  | markers (frame : Str) (nodes edges : List (Nodes.Pt ℝ))

/-- The node after its `main` has come to `ros::spin`. -/
structure GraphNode (T : Type) where
  setup : Setup
  correction : Pub.Publisher
  viewer : Nodes.Viewer ℝ
  slam : GraphSt T
  sent : List Out

/-- The rest of `main` after the SLAM is made, graph_demo.cpp:36-64. The interval of the maps is read (39-42) but not used. -/
noncomputable def startNode {T : Type} (setup : Setup) (s : GraphSt T) : GraphNode T := ⟨setup, Pub.Publisher.start, ⟨0, []⟩, s, []⟩

/-- `main`, graph_demo.cpp:31-67; `none`: an exception. -/
noncomputable def mainGraph (round : ℝ → Int) (stod : Str → Option ℝ) (rad : ℝ) (rnd : Nat) (env : Env)
    (sample : Int → Nat → ℝ → ℝ → Poses.Delta ℝ) (srv : Server ℝ) : Option ((P : GraphProgram) × GraphNode P.T) :=
  let props : Provider ℝ := .ofServer round stod srv
  let setup := setupOf round props srv
  (nodeGraph rad rnd env sample props setup.skipExceeding).map fun P => ⟨P, startNode setup P.start⟩

/-! ## Delivery of a scan -/

section
variable {T : Type}

/-- The frame of the markers, rviz_graph_viewer.h:44, 69: whatever the parameters say. -/
def markerFrame : Str := "odom_combined".toList

/-- `notify_with_pose`, src/core/states/world.h:52-54, with its observers in the order of their subscription, graph_demo.cpp:48-50:
pose_correction_tf_publisher.h:39-48,60-66, robot_pose_observers.h:18-26,30-32. -/
noncomputable def GraphNode.onPose (n : GraphNode T) (d : Delivery) (pose : Poses.Pose ℝ) : GraphNode T :=
  let corr := n.correction.onPoseUpdate (pubPose pose)
  { n with
    correction := corr
    sent := n.sent ++ [.transform d.clock.correction n.setup.mapFrame n.setup.odomFrame corr.map2odom,
      .transform d.clock.pose n.setup.mapFrame n.setup.robotFrame (pubPose pose).tr] }

/-- `notify_with_map`, world.h:56-58, with its observer, rviz_graph_viewer.h:23-34. -/
noncomputable def GraphNode.onMap (n : GraphNode T) (d : Delivery) (g : Poses.Graph ℝ) : Option (GraphNode T) :=
  (n.viewer.onMapUpdate g d.clock.checked.secs d.clock.stored.secs).map fun v =>
    { n with
      viewer := v
      sent := n.sent ++ (v.sent.drop n.viewer.sent.length).map fun m => .markers markerFrame m.2.1 m.2.2 }

/-- The observers of the topic in the order of their subscription, graph_demo.cpp:48-49,56, topic_with_transform.h:67-71: the publisher of
corrections (pose_correction_tf_publisher.h:31-37), and the observer of scans (laser_scan_observer.h:28-39) with `handle_sensor_data`
(laser_scan_grid_world.h:26-32). -/
noncomputable def GraphNode.onTransformed (cfg : GraphCfg T) (n : GraphNode T) (d : Delivery) (t : Tr) : Option (GraphNode T) :=
  let n := { n with correction := n.correction.handleMsg t }
  (n.slam.handle cfg (planar t, d.msg.body)).bind fun s =>
    (({ n with slam := s } : GraphNode T).onPose d s.pose).onMap d s.graph

/-- `transformed_msg_cb`, topic_with_transform.h:49-72. -/
noncomputable def GraphNode.onMsg (cfg : GraphCfg T) (n : GraphNode T) (d : Delivery) : Option (GraphNode T) :=
  match d.lookup n.setup.odomFrame d.msg.frame d.msg.sec d.msg.nsec with
  | none => some n
  | some t => n.onTransformed cfg d t

/-- The scans delivered one after another. `none`: the node has been aborted. -/
noncomputable def GraphNode.run (cfg : GraphCfg T) (n : GraphNode T) : List Delivery → Option (GraphNode T)
  | [] => some n
  | d :: ds => (n.onMsg cfg d).bind fun n => n.run cfg ds

end
end Slam.GraphSlam
