import Mathlib.Data.List.Basic

/-!
# Model of reading a bag

`BagTopicWithTransform` (src/ros/bag_topic_with_transform.h) and the loop over it in `run_slam`
(src/ros/lslam2D_bag_runner.cpp:134-149). A bag is the list of the records of the two topics. The cache of transforms
(`tf::Transformer`, not part of this code base) is abstract: a state, the effect of `setTransform`, and what
`lookupTransform` does.
-/

set_option autoImplicit false
set_option linter.unusedSectionVars false

namespace Slam.Bag

variable {M T S X : Type*}

/-- What `lookupTransform` does, as `has_synced_msg` tells apart: a transform; an extrapolation exception that speaks of
the future, of the past, of neither; any other exception, which nobody catches. -/
inductive Outcome (X : Type*) where
  | ok (x : X)
  | future
  | past
  | unclear
  | thrown

/-- The cache of transforms, and the transforms to ignore (`should_skip_tf_transform`,
bag_topic_with_transform.h:79-86). -/
structure Tf (M T S X : Type*) where
  empty : S
  set : S → T → S
  lookup : S → M → Outcome X
  skip : T → Bool

/-- A record of the bag: a message of the topic, or a message of transforms. -/
inductive Rec (M T : Type*) where
  | msg (m : M)
  | tf (ts : List T)

/-- Fields of the reader, and the messages reported as dropped on the console. -/
structure St (M S X : Type*) where
  cache : S
  queue : List M
  cur : Option (M × X)
  dropped : List M

/-- Body of the loop before the attempt, bag_topic_with_transform.h:51-65. -/
def feed (tf : Tf M T S X) (s : St M S X) : Rec M T → St M S X
  | .msg m => { s with queue := s.queue ++ [m] }
  | .tf ts => { s with cache := ts.foldl (fun c t => if tf.skip t then c else tf.set c t) s.cache }

/-- `has_synced_msg`, bag_topic_with_transform.h:88-119; `none`: an exception leaves the function. -/
def attempt (tf : Tf M T S X) (s : St M S X) : Option (St M S X × Bool) :=
  match s.queue with
  | [] => some (s, false)
  | m :: rest =>
    match tf.lookup s.cache m with
    | .ok x => some ({ s with queue := rest, cur := some (m, x) }, true)
    | .future => some (s, false)
    | .past => some ({ s with queue := rest, dropped := s.dropped ++ [m] }, false)
    | .unclear => some (s, false)
    | .thrown => none

/-- `extract_next_msg`, bag_topic_with_transform.h:48-69; the unread records are returned too. -/
def extract (tf : Tf M T S X) : List (Rec M T) → St M S X → Option (List (Rec M T) × St M S X × Bool)
  | [], s => (attempt tf s).map fun r => ([], r.1, r.2)
  | rec :: rest, s =>
    match attempt tf (feed tf s rec) with
    | none => none
    | some (s', true) => some (rest, s', true)
    | some (s', false) => extract tf rest s'

/-- How the loop over the reader ends. -/
inductive End (M S X : Type*) where
  | ended (s : St M S X)
  | threw
  | running

/-- The loop of `run_slam`, lslam2D_bag_runner.cpp:134-149, at most `fuel` calls: the messages handled with their
transforms, and how it ended. -/
def run (tf : Tf M T S X) : Nat → List (Rec M T) → St M S X → List (M × X) × End M S X
  | 0, _, _ => ([], .running)
  | fuel + 1, unread, s =>
    match extract tf unread s with
    | none => ([], .threw)
    | some (_, s', false) => ([], .ended s')
    | some (unread', s', true) =>
      let r := run tf fuel unread' s'
      (s'.cur.toList ++ r.1, r.2)

/-- The constructor, bag_topic_with_transform.h:23-34. -/
def St.start (tf : Tf M T S X) : St M S X := ⟨tf.empty, [], none, []⟩

end Slam.Bag
