import Verif.Model.Json

/-! # Specification vocabulary for GeoJSON documents -/

namespace F2C.Props.JsonSpec

open Text

variable {K : Type} [Field K] [LinearOrder K]

/-- The value is the number `x`. -/
def IsNumber (j : Json K) (x : K) : Prop := (∃ n : Int, j = .int n ∧ x = n) ∨ j = .real x

/-- A GeoJSON position with two or three numbers. -/
def IsPosition (j : Json K) (p : Point K) : Prop :=
  (∃ a b, j = .arr [a, b] ∧ IsNumber a p.x ∧ IsNumber b p.y ∧ p.z = 0) ∨
  ∃ a b c, j = .arr [a, b, c] ∧ IsNumber a p.x ∧ IsNumber b p.y ∧ IsNumber c p.z

/-- The coordinates of a line or ring. -/
def IsLine (j : Json K) (ps : List (Point K)) : Prop := ∃ l, j = .arr l ∧ List.Forall₂ IsPosition l ps

/-- The coordinates of a polygon. -/
def IsPolygon (j : Json K) (c : Cell K) : Prop := ∃ l, j = .arr l ∧ List.Forall₂ IsLine l c

/-- Member of an object. -/
def Has (j : Json K) (key : String) (v : Json K) : Prop :=
  ∃ l, j = .obj l ∧ l.lookup key.toList = some v

/-- A feature with a polygon. -/
def PolygonFeature (j : Json K) (c : Cell K) : Prop :=
  ∃ g k, Has j "geometry" g ∧ Has g "coordinates" k ∧ IsPolygon k c

/-- A feature with a line, a width and a number. -/
def SwathFeature (j : Json K) (line : List (Point K)) (w : K) (id : Int) : Prop :=
  ∃ g k p a, Has j "geometry" g ∧ Has g "coordinates" k ∧ IsLine k line ∧ Has j "properties" p ∧
    Has p "width" a ∧ IsNumber a w ∧ Has p "path_id" (.int id)

/-- A feature with a line, a width and a number written with a fraction. -/
def FractionFeature (j : Json K) (line : List (Point K)) (w x : K) : Prop :=
  ∃ g k p a, Has j "geometry" g ∧ Has g "coordinates" k ∧ IsLine k line ∧ Has j "properties" p ∧
    Has p "width" a ∧ IsNumber a w ∧ Has p "path_id" (.real x)

/-- `n` is `x` without its fraction: between 0 and `x`, and less than one away. -/
def CutOff (n : Int) (x : K) : Prop :=
  (0 ≤ x → 0 ≤ n ∧ (n : K) ≤ x ∧ x < n + 1) ∧ (x < 0 → n ≤ 0 ∧ x ≤ n ∧ (n : K) - 1 < x)

/-- A text property of a feature. -/
def Named (j : Json K) (key : String) (s : Str) : Prop :=
  ∃ p, Has j "properties" p ∧ Has p key (.str s)

/-- The features of a document. -/
def Features (doc : Json K) (fs : List (Json K)) : Prop := Has doc "features" (.arr fs)

/-- The elements of an array, the values of an object, nothing of null, and any other value itself. -/
def elements : Json K → List (Json K)
  | .arr l => l
  | .obj l => l.map Prod.snd
  | .null => []
  | j => [j]

/-- A position that can be read: two or three elements have to be an array of numbers; anything else is taken for
the origin. -/
def ReadablePosition (j : Json K) : Prop :=
  (elements j).length = 2 ∨ (elements j).length = 3 → ∃ l, j = .arr l ∧ ∀ x ∈ l, ∃ v, IsNumber x v

/-- A line or ring that can be read. -/
def ReadableLine (j : Json K) : Prop := ∀ p ∈ elements j, ReadablePosition p

/-- A polygon that can be read: nothing, or an array of rings. -/
def ReadablePolygon (j : Json K) : Prop := elements j = [] ∨ ∃ l, j = .arr l ∧ ∀ r ∈ l, ReadableLine r

/-- An object without the member. -/
def Lacks (j : Json K) (key : String) : Prop := ∃ l, j = .obj l ∧ l.lookup key.toList = none

/-- A feature with a polygon that can be read. -/
def ReadableCell (j : Json K) : Prop :=
  ∃ g k, Has j "geometry" g ∧ Has g "coordinates" k ∧ ReadablePolygon k

/-- A feature without geometry, or whose geometry has no coordinates. -/
def NoCoordinates (j : Json K) : Prop :=
  Lacks j "geometry" ∨ ∃ g, Has j "geometry" g ∧ Lacks g "coordinates"

/-- The first ring has no points although another one has. -/
def OuterMissing (k : Json K) : Prop :=
  ∃ r l, k = .arr (r :: l) ∧ elements r = [] ∧ ∃ r' ∈ l, elements r' ≠ []

/-- A feature of which a field can be made. -/
def ReadableField (j : Json K) : Prop :=
  (∃ g k, Has j "geometry" g ∧ Has g "coordinates" k ∧ ReadablePolygon k ∧ ¬OuterMissing k) ∧
    ∃ s, Named j "Name" s

/-- The coordinates are missing, or a line that can be read. -/
def ReadablePath (j : Json K) : Prop :=
  Lacks j "geometry" ∨ ∃ g, Has j "geometry" g ∧ (g = .null ∨ Lacks g "coordinates" ∨
    ∃ k, Has g "coordinates" k ∧ ReadableLine k)

/-- A numeric property of a feature. -/
def NumberProp (j : Json K) (key : String) (x : K) : Prop :=
  ∃ p a, Has j "properties" p ∧ Has p key a ∧ IsNumber a x

/-- A property of a feature that is a whole number or a truth value. -/
def WholeProp (j : Json K) (key : String) : Prop :=
  ∃ p a, Has j "properties" p ∧ Has p key a ∧ ((∃ n : Int, a = .int n) ∨ ∃ b, a = .bool b)

/-- A property of a feature written with a fraction. -/
def RealProp (j : Json K) (key : String) (x : K) : Prop :=
  ∃ p, Has j "properties" p ∧ Has p key (.real x)

/-- A number that is an `int` of 32 bits once its fraction is dropped. -/
def FitsInt (x : K) : Prop := -2 ^ 31 - 1 < x ∧ x < 2 ^ 31

/-- A feature of which a swath can be made. -/
def ReadableSwath (j : Json K) : Prop :=
  ReadablePath j ∧ (∃ w, NumberProp j "width" w ∧ 0 < w) ∧
    (WholeProp j "path_id" ∨ ∃ x, RealProp j "path_id" x ∧ FitsInt x)

/-- A feature that is fine up to its number, which is too large. -/
def HugeId (j : Json K) : Prop :=
  ReadablePath j ∧ (∃ w, NumberProp j "width" w) ∧ ∃ x, RealProp j "path_id" x ∧ ¬FitsInt x

/-- The features that are read: none of null and of objects without features. -/
def Listed (doc : Json K) (fs : List (Json K)) : Prop :=
  (∃ v, Has doc "features" v ∧ fs = elements v) ∨ ((doc = .null ∨ Lacks doc "features") ∧ fs = [])

/-- The first feature that is not good is bad. -/
def FirstBad (good bad : Json K → Prop) (fs : List (Json K)) : Prop :=
  ∃ a j b, fs = a ++ j :: b ∧ (∀ i ∈ a, good i) ∧ bad j

end F2C.Props.JsonSpec
