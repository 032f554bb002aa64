import Verif.Js.Value
import Verif.Spec.Echo
import Verif.Text.RoundTrip

/-!
# `JSON.stringify` of what `JSON.parse` returns
-/

namespace Verif.Js
open Verif Verif.EchoSpec Verif.TextSpec Verif.Text

/-- The number that comes back. -/
def echoNum : JNum → Json
  | .int i => numJson (roundInt i)
  | .flt q => numJson q

/-- The document that comes back. -/
def echo : Json → Json
  | .null => .null
  | .bool b => .bool b
  | .num n => echoNum n
  | .str s => .str s
  | .arr l => .arr (echoList l)
  | .obj kvs => .obj (echoObj kvs)
where
  echoList : List Json → List Json
    | [] => []
    | j :: r => echo j :: echoList r
  echoObj : List (Str × Json) → List (Str × Json)
    | [] => []
    | (k, j) :: r => (k, echo j) :: echoObj r

theorem echo_arr (l : List Json) : echo (.arr l) = .arr (l.map echo) := by
  rw [echo]
  congr 1
  induction l with
  | nil => rfl
  | cons j r ih => rw [echo.echoList, ih]; rfl

theorem echo_obj (kvs : List (Str × Json)) : echo (.obj kvs) = .obj (kvs.map (fun p => (p.1, echo p.2))) := by
  rw [echo]
  congr 1
  induction kvs with
  | nil => rfl
  | cons p r ih => obtain ⟨k, j⟩ := p; rw [echo.echoObj, ih]; rfl

mutual
theorem stringify_fromJson : ∀ j : Json, stringify (fromJson j) = some (some (echo j))
  | .null => rfl
  | .bool _ => rfl
  | .num (.int _) => rfl
  | .num (.flt _) => rfl
  | .str _ => rfl
  | .arr l => by rw [fromJson, stringify, stringify_list l, echo]; rfl
  | .obj kvs => by rw [fromJson, stringify, stringify_obj kvs, echo]; rfl

theorem stringify_list : ∀ l : List Json, stringify.stringifyList (fromJson.fromJsonList l) = some (echo.echoList l)
  | [] => rfl
  | j :: r => by
    rw [fromJson.fromJsonList, stringify.stringifyList, stringify_fromJson j, stringify_list r]; rfl

theorem stringify_obj : ∀ l : List (Str × Json), stringify.stringifyObj (fromJson.fromJsonObj l) = some (echo.echoObj l)
  | [] => rfl
  | (k, j) :: r => by
    rw [fromJson.fromJsonObj, stringify.stringifyObj, stringify_fromJson j, stringify_obj r]; rfl
end

theorem roundInt_exact {i : Int} (h : -(2 ^ 53) ≤ i ∧ i ≤ 2 ^ 53) : roundInt i = i := by
  by_cases h1 : i = 2 ^ 53
  · subst h1; decide
  by_cases h2 : i = -(2 ^ 53)
  · subst h2; decide
  exact roundInt_small (by omega) (by omega)

theorem numJson_int (i : Int) : numJson (i : Rat) = .num (.int i) := by
  unfold numJson
  rw [if_pos (show (i : Rat).den = 1 from rfl)]
  rfl

theorem echoNum_int {i : Int} (h : Exact (.int i)) : echoNum (.int i) = .num (.int i) := by
  rw [echoNum, roundInt_exact h, numJson_int]

theorem rat_of_den {q : Rat} (h : q.den = 1) : ((q.num : Int) : Rat) = q := by
  apply Rat.ext
  · rfl
  · exact h.symm

theorem echoNum_same {n : JNum} (h : Exact n) : SameDoc (.num n) (echoNum n) := by
  cases n with
  | int i => rw [echoNum_int h]; exact rfl
  | flt q =>
    rw [echoNum, numJson]
    split
    · next hd => exact (rat_of_den hd).symm
    · exact rfl

theorem membersIn_mono {kvs : List (Str × Json)} {m m' : List (Str × Json)} (hm : ∀ p ∈ m, p ∈ m')
    (h : SameDoc.membersIn kvs m) : SameDoc.membersIn kvs m' := by
  induction kvs with
  | nil => trivial
  | cons p r ih =>
    obtain ⟨k, j⟩ := p
    obtain ⟨⟨j', h1, h2⟩, h3⟩ := h
    exact ⟨⟨j', hm _ h1, h2⟩, ih h3⟩

mutual
theorem echo_same : ∀ j : Json, AllNums Exact j → SameDoc j (echo j)
  | .null, _ => trivial
  | .bool _, _ => rfl
  | .num _, h => echoNum_same h
  | .str _, _ => rfl
  | .arr l, h => echo_sameList l h
  | .obj kvs, h => ⟨echoObj_length kvs, echo_sameObj kvs h⟩

theorem echo_sameList : ∀ l : List Json, AllNums.inList Exact l → SameDoc.sameList l (echo.echoList l)
  | [], _ => trivial
  | j :: r, h => ⟨echo_same j h.1, echo_sameList r h.2⟩

theorem echoObj_length : ∀ l : List (Str × Json), l.length = (echo.echoObj l).length
  | [] => rfl
  | (_, _) :: r => by rw [echo.echoObj, List.length_cons, List.length_cons, echoObj_length r]

theorem echo_sameObj : ∀ l : List (Str × Json), AllNums.inMembers Exact l → SameDoc.membersIn l (echo.echoObj l)
  | [], _ => trivial
  | (_, j) :: r, h => ⟨⟨echo j, List.mem_cons_self, echo_same j h.1⟩,
      membersIn_mono (fun _ hp => List.mem_cons_of_mem _ hp) (echo_sameObj r h.2)⟩
end

end Verif.Js
