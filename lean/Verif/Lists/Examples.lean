import Verif.Lists.Props
/-! Cases that meet the hypotheses of the theorems of `Lists/Props`. -/
namespace Vvflow.Lists
open Vvflow.Hdf Vvflow.Sensors Vvflow.Xtract

/-- Two vortices in two lines. -/
def twoText : Str := "1 2 0.5\n-3e1\t4. -1\n".toList

example : (words twoText).map readDec = (columns [⟨1, 2, 1 / 2⟩, ⟨-30, 4, -1⟩]).map some := by decide +kernel
example : load id [⟨7, 7, 7⟩] (some twoText) = ⟨[⟨7, 7, 7⟩, ⟨1, 2, 1 / 2⟩, ⟨-30, 4, -1⟩], false⟩ := by decide +kernel

/-- A comment after the first object, which hides the second one. -/
def commented : Str := "1 2 0.5\n# wake\n3 4 1\n".toList

example : words commented = ["1".toList, "2".toList, "0.5".toList] ++ [] ++
    ["#".toList, "wake".toList, "3".toList, "4".toList, "1".toList] := by decide +kernel
example : ["1".toList, "2".toList, "0.5".toList].map readDec = (columns [⟨1, 2, 1 / 2⟩]).map some := by decide +kernel
example : load id [] (some commented) = ⟨[⟨1, 2, 1 / 2⟩], false⟩ := by decide +kernel

/-- A file of two objects with four columns is read as two objects, the second one made of both lines. -/
example : load id [] (some "1 2 3 4\n5 6 7 8\n".toList) = ⟨[⟨1, 2, 3⟩, ⟨4, 5, 6⟩], false⟩ := by decide +kernel

example : loadBin [] (some ([⟨1, 2, 3⟩, ⟨4, 5, 2 ^ 63⟩].flatMap Legacy.wObj)) = ⟨[⟨1, 2, 3⟩, ⟨4, 5, 2 ^ 63⟩], false⟩ := by
  decide +kernel
example : loadBin [] (some (Legacy.wObj ⟨1, 2, 3⟩ ++ [1, 2, 3])) = ⟨[⟨1, 2, 3⟩], false⟩ := by decide +kernel

example : append [1, 2] [some 3, some 4, none, some 5] = ⟨[1, 2, 3, 4], true⟩ := by decide +kernel
example : getindex [10, 20, 30] (.number (some 3)) = .ok (.object 30) := by decide +kernel
example : getindex [10, 20, 30] (.number (some 4)) = .ok .nil := by decide +kernel
example : getindex [10, 20, 30] (.number none) = .ok .nil := by decide +kernel
example : pairsNext [10, 20, 30] 5 none = .ok [(1, 10), (2, 20), (3, 30)] := by decide +kernel
example : getnext [10, 20, 30] (some (-1)) = .ok none := by decide +kernel

end Vvflow.Lists
