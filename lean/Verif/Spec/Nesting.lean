import Verif.Model.Visitor
/-!
# Specification: which callback sequences close only what they opened
-/
namespace Verif.Spec
open Verif

/-- Every close has something to close, and a ring is not closed directly inside a point. The stack says for each open
level whether it is a point. Nothing else is required: unclosed levels, coordinates anywhere, rings in linestrings and
closing a ring with a geometry end (and conversely) are all allowed. -/
def closesMatch : List Bool → List Event → Prop
  | _, [] => True
  | _, .featStart :: t => closesMatch [] t
  | st, .geomStart gt _ :: t => closesMatch (decide (gt = 1) :: st) t
  | st, .ringStart :: t => closesMatch (false :: st) t
  | st, .ringEnd :: t => match st with
    | false :: st' => closesMatch st' t
    | _ => False
  | st, .geomEnd :: t => match st with
    | _ :: st' => closesMatch st' t
    | [] => False
  | st, .nullFeat :: t => closesMatch st t
  | st, .coords _ _ :: t => closesMatch st t
  | st, .featEnd :: t => closesMatch st t

end Verif.Spec
