import Verif.Lemmas.Sample
import Verif.Model.Shown

/-!
# Specification for C114: what is printed for documents in whole pixels
-/

namespace Colosseum

namespace Tutorial

/-- The text of a box in the tutorial: width, height, left and top of the content. -/
def text (w h x y : Int) : PyStr := lit "<Box (" ++ intStr w ++ lit "x" ++ intStr h ++ lit " @ " ++ intStr x ++ lit "," ++ intStr y ++ lit ")>"

/-- The document of the tutorial (`/repo/docs/tutorial/tutorial-1.rst:60-105`), with any sizes: a block with two margins and children of given sizes. -/
def doc (w h top left : Int) (kids : List (Int × Int)) : Node :=
  block [(.width, px w), (.height, px h), (.margin .top, px top), (.margin .left, px left)] (kids.map fun k => block [(.width, px k.1), (.height, px k.2)] [])

/-- How high the first children are together. -/
def above (kids : List (Int × Int)) (i : Nat) : Int := ((kids.take i).map Prod.snd).sum

end Tutorial

end Colosseum
