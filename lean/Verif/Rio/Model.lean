import Mathlib.Analysis.SpecialFunctions.Trigonometric.Basic

/-!
# Reading robot definitions: elements, attributes and units

Models `VirtualRobot/Units.h` and lines 29-112, 402-593, 637-758 of `VirtualRobot/XML/BaseIO.cpp`.

An XML document is the tree that the parser (rapidxml, an external library in the sources) delivers; parsing of the text is not modelled.
Numbers are real numbers, `std::stringstream >> float` is an arbitrary function `F` from strings to numbers, `none` where it fails. `none` as
the result of a function is the exception `VirtualRobotException`. Warnings on the console are left out.
-/

namespace Simox.Rio

/-- XML/rapidxml.hpp `xml_node`: name, value, attributes and child nodes in the order of the document. -/
structure Xml where
  name : String
  attrs : List (String × String) := []
  children : List Xml := []
  value : String := ""

/-- XML/BaseIO.cpp 571-585 `getLowerCase`; `tolower` of the C locale. -/
def lower (s : String) : String := String.ofList (s.toList.map Char.toLower)

/-- XML/rapidxml.hpp 325-350 `compare(…, case_sensitive = false)`: the same letters up to upper and lower case. -/
def same (a b : String) : Bool := lower a == lower b

namespace Xml

/-- XML/rapidxml.hpp `first_attribute(name, 0, false)`. -/
def firstAttr (n : Xml) (a : String) : Option String := (n.attrs.find? fun p => same p.1 a).map Prod.snd

/-- XML/rapidxml.hpp 1027-1048 `first_node(name, 0, false)`. -/
def firstNode (n : Xml) (a : String) : Option Xml := n.children.find? fun c => same c.name a

/-- XML/BaseIO.cpp 434-445 `getAllAttributes`. -/
def allAttrs (n : Xml) (a : String) : List String := (n.attrs.filter fun p => same p.1 a).map Prod.snd

end Xml

/-- XML/BaseIO.cpp 29-39 `isTrue`. -/
def isTrue (s : String) : Bool := lower s == "true" || lower s == "1" || lower s == "yes"

/-! ## Units -/

/-- Units.h `Units`: a string. -/
abbrev Units := String

namespace Units

/-- Units.h 34-37. -/
def isRadian (u : Units) : Bool := "radian" == u || "rad" == u
/-- Units.h 38-41. -/
def isDegree (u : Units) : Bool := "degree" == u || "deg" == u
/-- Units.h 42-45. -/
def isAngle (u : Units) : Bool := isRadian u || isDegree u
/-- Units.h 46-56. -/
noncomputable def toRadian (u : Units) (m : ℝ) : ℝ := if isDegree u then m * Real.pi / 180 else m
/-- Units.h 57-67. -/
noncomputable def toDegree (u : Units) (m : ℝ) : ℝ := if isRadian u then m * 180 / Real.pi else m
/-- Units.h 69-72. -/
def isMillimeter (u : Units) : Bool := "mm" == u || "millimeter" == u
/-- Units.h 73-76. -/
def isMeter (u : Units) : Bool := "m" == u || "meter" == u
/-- Units.h 77-80. -/
def isLength (u : Units) : Bool := isMillimeter u || isMeter u
/-- Units.h 81-91. -/
noncomputable def toMillimeter (u : Units) (m : ℝ) : ℝ := if isMeter u then m * 1000 else m
/-- Units.h 92-102. -/
noncomputable def toMeter (u : Units) (m : ℝ) : ℝ := if isMillimeter u then m * 0.001 else m
/-- Units.h 104-107. -/
def isGram (u : Units) : Bool := "g" == u || "gram" == u
/-- Units.h 108-111. -/
def isKilogram (u : Units) : Bool := "kg" == u || "kilogram" == u
/-- Units.h 112-115. -/
def isTon (u : Units) : Bool := "t" == u || "ton" == u
/-- Units.h 116-119. -/
def isWeight (u : Units) : Bool := isGram u || isKilogram u || isTon u
/-- Units.h 120-134. -/
noncomputable def toGram (u : Units) (m : ℝ) : ℝ := if isKilogram u then m * 1000 else if isTon u then m * 1000000 else m
/-- Units.h 135-149. -/
noncomputable def toKilogram (u : Units) (m : ℝ) : ℝ := if isGram u then m * 0.001 else if isTon u then m * 1000 else m
/-- Units.h 150-164. -/
noncomputable def toTon (u : Units) (m : ℝ) : ℝ := if isGram u then m * 0.000001 else if isKilogram u then m * 0.001 else m
/-- Units.h 166-169. -/
def isSecond (u : Units) : Bool := "s" == u || "sec" == u || "second" == u
/-- Units.h 170-173. -/
def isMinute (u : Units) : Bool := "min" == u || "minute" == u
/-- Units.h 174-177. -/
def isHour (u : Units) : Bool := "h" == u || "hour" == u
/-- Units.h 178-181. -/
def isTime (u : Units) : Bool := isSecond u || isMinute u || isHour u
/-- Units.h 182-196. -/
noncomputable def toSecond (u : Units) (m : ℝ) : ℝ := if isMinute u then m * 60 else if isHour u then m * 3600 else m
/-- Units.h 197-211. -/
noncomputable def toMinute (u : Units) (m : ℝ) : ℝ := if isSecond u then m / 60 else if isHour u then m * 60 else m
/-- Units.h 212-226. -/
noncomputable def toHour (u : Units) (m : ℝ) : ℝ := if isSecond u then m / 3600 else if isMinute u then m / 60 else m
/-- Units.h 228-231. -/
def isValid (u : Units) : Bool := isLength u || isAngle u || isWeight u || isTime u

end Units

/-- Units.h `UnitsType`. -/
inductive Kind where
  | ignore
  | angle
  | length
  | weight
  | time
  deriving DecidableEq

/-- XML/BaseIO.cpp 402-432 `hasUnitsAttribute`. -/
def hasUnits (n : Xml) : Bool :=
  (n.firstAttr "unit").isSome || (n.firstAttr "units").isSome || (n.firstAttr "unitsWeight").isSome ||
    (n.firstAttr "unitsLength").isSome || (n.firstAttr "unitsAngle").isSome || (n.firstAttr "unitsTime").isSome

/-- XML/BaseIO.cpp 447-465 `getUnitsAttributes`. -/
def getAllUnits (n : Xml) : List Units :=
  (n.allAttrs "unit" ++ n.allAttrs "units" ++ n.allAttrs "unitsWeight" ++ n.allAttrs "unitsLength" ++ n.allAttrs "unitsAngle" ++
    n.allAttrs "unitsTime").map lower

/-- XML/BaseIO.cpp 473-526: the attribute `getUnitsAttribute` reads. -/
def unitsAttr (n : Xml) (k : Kind) : Option String :=
  match n.firstAttr "unit" with
  | some v => some v
  | none =>
    match n.firstAttr "units" with
    | some v => some v
    | none =>
      match k with
      | .angle => n.firstAttr "unitsAngle"
      | .length => n.firstAttr "unitsLength"
      | .weight => n.firstAttr "unitsWeight"
      | .time => n.firstAttr "unitsTime"
      | .ignore =>
        match n.firstAttr "unitsAngle" with
        | some v => some v
        | none =>
          match n.firstAttr "unitsLength" with
          | some v => some v
          | none =>
            match n.firstAttr "unitsWeight" with
            | some v => some v
            | none => n.firstAttr "unitsTime"

/-- XML/BaseIO.cpp 530-559: the check of `getUnitsAttribute`. -/
def unitsOk (k : Kind) (u : Units) : Bool :=
  match k with
  | .angle => u.isAngle
  | .length => u.isLength
  | .weight => u.isWeight
  | .time => u.isTime
  | .ignore => true

/-- XML/BaseIO.cpp 473-562 `getUnitsAttribute`. -/
def getUnits (n : Xml) (k : Kind) : Option Units :=
  match unitsAttr n k with
  | none => none
  | some v => if unitsOk k (lower v) then some (lower v) else none

/-! ## Numbers -/

section
variable (F : String → Option ℝ)

/-- XML/BaseIO.cpp 88-94 `getFloatByAttributeName`. -/
def getFloat (n : Xml) (a : String) : Option ℝ :=
  match n.firstAttr a with
  | none => none
  | some v => F v

/-- XML/BaseIO.cpp 102-113 `getOptionalFloatByAttributeName`. -/
def getOptFloat (n : Xml) (a : String) (standard : ℝ) : Option ℝ :=
  match n.firstAttr a with
  | none => some standard
  | some v => F v

end

/-- XML/BaseIO.cpp 637-671, 682-716, 727-758: the loop of `processFloatAttribute`, `processIntAttribute` and `processStringAttribute`; `C` converts
the text, `found` is the value found before. -/
def processLoop {α : Type} (C : String → Option α) (attributeName : String) (allowOther : Bool) : List (String × String) → Option α → Option (Option α)
  | [], found => some found
  | p :: rest, found =>
    if attributeName == lower p.1 then
      match found with
      | some _ => none
      | none =>
        match C p.2 with
        | none => none
        | some v => processLoop C attributeName allowOther rest (some v)
    else if allowOther then processLoop C attributeName allowOther rest found
    else none

/-- XML/BaseIO.cpp 637-671 `processFloatAttribute` with `zero` = 0, 682-716 `processIntAttribute`, 727-758 `processStringAttribute` with the empty string, 869-872
`processNameAttribute` with the name "name". -/
def processAttr {α : Type} (C : String → Option α) (zero : α) (attributeName : String) (n : Xml) (allowOther : Bool) : Option α :=
  match processLoop C attributeName allowOther n.attrs none with
  | none => none
  | some found => some (found.getD zero)

/-- XML/BaseIO.cpp 869-872 `processNameAttribute`. -/
def processName (n : Xml) (allowOther : Bool) : Option String := processAttr some "" "name" n allowOther

end Simox.Rio
