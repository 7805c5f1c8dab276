import Verif.Spelling.Spec
import Verif.Types.Read

/-! Helper lemmas: the spelling of types. -/

namespace RuC.Spelling
open RuC.Types RuC.Builder
open Listing (codes)

/-! ## The text of a tree -/

/-- The names of the types without parts. -/
def baseText : Base → List Nat
  | .vararg => codes "..." | .null => codes "nullptr" | .file => codes "FILE" | .void => codes "void" | .bool => codes "bool" | .float => codes "double" | .char => codes "char"
  | .int => codes "int"

/-- Is it a pointer? -/
def isPtr : T → Bool
  | .ptr _ => true
  | _ => false

mutual
/-- The text of a type. -/
def print : T → List Nat
  | .base b => baseText b
  | .func r ps => print r ++ (codes " (" ++ (printTs ps ++ codes ")"))
  | .struct ms => codes "struct { " ++ (printMs ms ++ codes "}")
  | .array e => print e ++ codes "[]"
  | .ptr e => print e ++ codes "*"
  | .const e => if isPtr e then print e ++ codes " const" else codes "const " ++ print e

/-- The text of parameters. -/
def printTs : Ts → List Nat
  | .nil => []
  | .cons t r => print t ++ (match r with | .nil => [] | .cons .. => codes ", " ++ printTs r)

/-- The text of members. -/
def printMs : Ms → List Nat
  | .nil => []
  | .cons t w r => print t ++ (codes " " ++ (w ++ (codes "; " ++ printMs r)))
end

theorem get_some {cells : List Int} {i : Nat} {x : Int} (h : cells[i]? = some x) : get cells i = x := by
  unfold Types.get
  rw [List.getD_eq_getElem?_getD, h]
  rfl

theorem lt_of_some {cells : List Int} {i : Nat} {x : Int} (h : cells[i]? = some x) : i < cells.length := (List.getElem?_eq_some_iff.1 h).1

section
variable {name : Nat → List Nat} {cells : List Int} (hlen : cells.length < 4611686018427387904)
include hlen

theorem class_of {n : Nat} {x : Int} (h0 : 0 < n) (h : cells[n]? = some x) : typeClass cells n = x ∧ toSize (n : Int) = n := by
  have hl := lt_of_some h
  have e : toSize (n : Int) = n := toSize_natCast (by omega)
  refine ⟨?_, e⟩
  unfold typeClass
  rw [if_pos (by omega), e, get_some h]

theorem hasClass_iff {n : Nat} {x c : Int} (h0 : 0 < n) (h : cells[n]? = some x) : hasClass cells n c ↔ x = c := by
  unfold hasClass
  rw [(class_of hlen h0 h).2, get_some h]
  constructor
  · exact fun k => k.2
  · exact fun k => ⟨by omega, k⟩

theorem behind_of {n : Nat} {x : Int} (h0 : 0 < n) (h : cells[n]? = some x) (hx : x ≠ TYPE_CONST) : behind cells n = some (n : Int) :=
  behind_plain fun k => hx ((hasClass_iff hlen h0 h).1 k)

theorem next_cell {n k : Nat} {x y : Int} (_ : cells[n]? = some x) (h1 : cells[n + k]? = some y) : get cells (usz (n + k)) = y := by
  have := lt_of_some h1
  rw [usz_of_lt (by omega), get_some h1]
end

theorem pointer_means {name : Nat → List Nat} {cells : List Int} (hlen : cells.length < 4611686018427387904) {t : Int} {e : T} (hc : constable e = true) (h : means name cells t e) :
    isPointer cells t = some (isPtr e) := by
  cases e with
  | base b =>
    rw [means] at h
    subst h
    have hn : ∀ c, ¬ hasClass cells b.num c := fun c k => by
      have := k.1
      cases b <;> simp [Base.num] at this
    unfold isPointer
    rw [behind_plain (fun k => hn TYPE_CONST k)]
    simp only [Option.map_some, isPtr, hn, decide_false]
  | struct ms =>
    rw [means] at h
    obtain ⟨n, rfl, h0, h1, -⟩ := h
    unfold isPointer
    rw [behind_of hlen h0 h1 (by decide)]
    simp only [Option.map_some, isPtr, hasClass_iff hlen h0 h1]
    rfl
  | ptr e =>
    rw [means] at h
    obtain ⟨n, u, rfl, h0, h1, -⟩ := h
    unfold isPointer
    rw [behind_of hlen h0 h1 (by decide)]
    simp only [Option.map_some, isPtr, hasClass_iff hlen h0 h1]
    rfl
  | func => cases hc
  | array => cases hc
  | const => cases hc

theorem paramLoop_end {f : Int → Option (List Nat)} {cells : List Int} {t : Int} {n i : Nat} : paramLoop f cells t n 0 i = some [] := rfl

mutual
/-- The code spells the type that a number stands for. -/
theorem spell_means {name : Nat → List Nat} {cells : List Int} (hlen : cells.length < 4611686018427387904) : ∀ (e : T) (t : Int) (fuel : Nat), ok e = true → means name cells t e →
    depth e ≤ fuel → spell name cells fuel t = some (print e)
  | e, t, 0, _, _, hd => by cases e <;> simp [depth] at hd
  | .base b, t, fuel + 1, _, h, _ => by
    rw [means] at h
    subst h
    cases b <;> rfl
  | .func r ps, t, fuel + 1, hok, h, hd => by
    rw [means] at h
    obtain ⟨n, u, rfl, h0, h1, h2, h3, h4, h5⟩ := h
    simp only [ok, Bool.and_eq_true] at hok
    simp only [depth] at hd
    have hr := spell_means hlen r u fuel hok.1 h4 (by omega)
    have e1 : returnType cells n = u := by
      unfold returnType
      rw [if_pos ((hasClass_iff hlen h0 h1).2 rfl), (class_of hlen h0 h1).2, next_cell hlen h1 h2]
    have hps : ps.len < 18446744073709551616 ∧ parameterAmount cells n = ps.len := by
      have hl : ps.len ≤ cells.length := by
        have := params_length ps (n + 3) h5
        omega
      refine ⟨by omega, ?_⟩
      unfold parameterAmount
      rw [if_pos ((hasClass_iff hlen h0 h1).2 rfl), (class_of hlen h0 h1).2, next_cell hlen h1 h3, toSize_natCast (by omega)]
    have hp := spell_params hlen ps n fuel ps.len 0 h0 h1 hok.2 h5 (by omega) (by omega)
    rw [spell]
    simp only [(class_of hlen h0 h1).1, e1, hps.2, hr, hp]
    rfl
  | .struct ms, t, fuel + 1, hok, h, hd => by
    rw [means] at h
    obtain ⟨n, rfl, h0, h1, h2, h3⟩ := h
    simp only [ok] at hok
    simp only [depth] at hd
    have hn : memberAmount cells n = some ms.len := by
      have hl : 2 * ms.len ≤ cells.length := by
        have := members_length ms (n + 3) h3
        omega
      unfold memberAmount
      rw [behind_of hlen h0 h1 (by decide), Option.map_some, if_pos ((hasClass_iff hlen h0 h1).2 rfl), (class_of hlen h0 h1).2, next_cell hlen h1 h2]
      rw [show (2 * (ms.len : Int)) = ((2 * ms.len : Nat) : Int) by omega, toSize_natCast (by omega)]
      congr 1
      omega
    have hm := spell_members hlen ms n fuel 0 h0 h1 hok h3 (by omega)
    rw [spell]
    simp only [(class_of hlen h0 h1).1, hn, hm, Option.bind_some]
    rfl
  | .array e, t, fuel + 1, hok, h, hd => by
    rw [means] at h
    obtain ⟨n, u, rfl, h0, h1, h2, h3⟩ := h
    simp only [ok] at hok
    simp only [depth] at hd
    have hr := spell_means hlen e u fuel hok h3 (by omega)
    have e1 : arrayElement cells n = some u := by
      unfold arrayElement
      rw [behind_of hlen h0 h1 (by decide), Option.map_some, if_pos ((hasClass_iff hlen h0 h1).2 rfl), (class_of hlen h0 h1).2, next_cell hlen h1 h2]
    rw [spell]
    simp only [(class_of hlen h0 h1).1, e1, hr, Option.bind_some]
    rfl
  | .ptr e, t, fuel + 1, hok, h, hd => by
    rw [means] at h
    obtain ⟨n, u, rfl, h0, h1, h2, h3⟩ := h
    simp only [ok] at hok
    simp only [depth] at hd
    have hr := spell_means hlen e u fuel hok h3 (by omega)
    have e1 : pointerElement cells n = some u := by
      unfold pointerElement
      rw [behind_of hlen h0 h1 (by decide), Option.map_some, if_pos ((hasClass_iff hlen h0 h1).2 rfl), (class_of hlen h0 h1).2, next_cell hlen h1 h2]
    rw [spell]
    simp only [(class_of hlen h0 h1).1, e1, hr, Option.bind_some]
    rfl
  | .const e, t, fuel + 1, hok, h, hd => by
    rw [means] at h
    obtain ⟨n, u, rfl, h0, h1, h2, h3⟩ := h
    simp only [ok, Bool.and_eq_true] at hok
    simp only [depth] at hd
    have hr := spell_means hlen e u fuel hok.2 h3 (by omega)
    have e1 : unqualified cells n = u := by
      unfold unqualified
      rw [if_pos (show isConst cells n from (hasClass_iff hlen h0 h1).2 rfl), (class_of hlen h0 h1).2, next_cell hlen h1 h2]
    have e2 := pointer_means hlen hok.1 h3
    rw [spell, print]
    simp only [(class_of hlen h0 h1).1, e1, e2, hr, Option.bind_some, Option.map_some]
    rfl

theorem spell_params {name : Nat → List Nat} {cells : List Int} (hlen : cells.length < 4611686018427387904) : ∀ (ps : Ts) (n fuel m i : Nat), 0 < n → cells[n]? = some TYPE_FUNCTION →
    okTs ps = true → meansAll name cells (n + 3 + i) ps → depthTs ps ≤ fuel → m = i + ps.len → paramLoop (spell name cells fuel) cells n m ps.len i = some (printTs ps)
  | .nil, n, fuel, m, i, _, _, _, _, _, _ => rfl
  | .cons t r, n, fuel, m, i, h0, h1, hok, h, hd, hm => by
    simp only [okTs, Bool.and_eq_true] at hok
    simp only [depthTs] at hd
    rw [meansAll] at h
    obtain ⟨⟨u, hu, hmu⟩, hr⟩ := h
    simp only [Ts.len] at hm ⊢
    have e1 := spell_means hlen t u fuel hok.1 hmu (by omega)
    have e2 := spell_params hlen r n fuel m (i + 1) h0 h1 hok.2 hr (by omega) (by omega)
    have e3 : parameterType cells n i = u := by
      unfold parameterType
      rw [if_pos ((hasClass_iff hlen h0 h1).2 rfl), (class_of hlen h0 h1).2]
      have := lt_of_some hu
      rw [usz_of_lt (by omega), get_some hu]
    rw [paramLoop, e3, e1, Option.bind_some, e2, Option.map_some]
    cases r with
    | nil =>
      simp only [Ts.len] at hm
      rw [if_neg (by omega)]
      simp only [printTs, List.append_nil]
    | cons t' r' =>
      simp only [Ts.len] at hm
      rw [if_pos (by omega)]
      simp only [printTs]

theorem spell_members {name : Nat → List Nat} {cells : List Int} (hlen : cells.length < 4611686018427387904) : ∀ (ms : Ms) (n fuel i : Nat), 0 < n → cells[n]? = some TYPE_STRUCTURE →
    okMs ms = true → meansMembers name cells (n + 3 + 2 * i) ms → depthMs ms ≤ fuel → memberLoop (spell name cells fuel) name cells n ms.len i = some (printMs ms)
  | .nil, n, fuel, i, _, _, _, _, _ => rfl
  | .cons t w r, n, fuel, i, h0, h1, hok, h, hd => by
    simp only [okMs, Bool.and_eq_true] at hok
    simp only [depthMs] at hd
    rw [meansMembers] at h
    obtain ⟨⟨u, m, hu, hm, hb, hw, hmu⟩, hr⟩ := h
    have e1 := spell_means hlen t u fuel hok.1.1 hmu (by omega)
    have e2 := spell_members hlen r n fuel (i + 1) h0 h1 hok.2 (by rw [show n + 3 + 2 * (i + 1) = n + 3 + 2 * i + 2 by omega]; exact hr) (by omega)
    have e3 : memberType cells n i = some u := by
      unfold memberType
      rw [behind_of hlen h0 h1 (by decide), Option.map_some, if_pos ((hasClass_iff hlen h0 h1).2 rfl), (class_of hlen h0 h1).2]
      have := lt_of_some hu
      rw [usz_of_lt (by omega), get_some hu]
    have e4 : memberName cells n i = some m := by
      unfold memberName
      rw [behind_of hlen h0 h1 (by decide), Option.map_some, if_pos ((hasClass_iff hlen h0 h1).2 rfl), (class_of hlen h0 h1).2]
      have := lt_of_some hm
      rw [usz_of_lt (by omega), show n + 4 + 2 * i = n + 3 + 2 * i + 1 by omega, get_some hm, toSize_natCast (by omega)]
    simp only [Ms.len]
    rw [memberLoop, e3, Option.bind_some, e4, Option.bind_some, e1, Option.bind_some, e2, Option.map_some, printMs, hw]

theorem params_length {name : Nat → List Nat} {cells : List Int} : ∀ (ps : Ts) (i : Nat), meansAll name cells i ps → ps.len = 0 ∨ i + ps.len ≤ cells.length
  | .nil, _, _ => .inl rfl
  | .cons t r, i, h => by
    rw [meansAll] at h
    obtain ⟨⟨u, hu, -⟩, hr⟩ := h
    have := lt_of_some hu
    have := params_length r (i + 1) hr
    simp only [Ts.len]
    omega

theorem members_length {name : Nat → List Nat} {cells : List Int} : ∀ (ms : Ms) (i : Nat), meansMembers name cells i ms → ms.len = 0 ∨ i + 2 * ms.len ≤ cells.length
  | .nil, _, _ => .inl rfl
  | .cons t w r, i, h => by
    rw [meansMembers] at h
    obtain ⟨⟨u, m, hu, hm, -⟩, hr⟩ := h
    have := lt_of_some hm
    have := members_length r (i + 2) hr
    simp only [Ms.len]
    omega
end

end RuC.Spelling
