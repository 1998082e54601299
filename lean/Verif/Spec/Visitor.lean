import Verif.Model.Visitor

/-! # What the crate promises to every visitor

A visitor that is given a sequence or a map asks for something, gets an answer, asks again, and so on, until it returns.
Such a conversation is a list of requests with their answers.  Here is which answers it gets, and what becomes of the
result, in closed form. -/

set_option autoImplicit false

namespace Nrbf.Visitors

section
variable {ι α : Type}

/-- The answers of a conversation. -/
def replies {β : Type} (c : List (β × Res (Option α))) : List (Res (Option α)) := c.map Prod.snd

/-- How many answers are not errors. -/
def successes {β : Type} (c : List (β × Res (Option α))) : Nat :=
  (c.filter fun x => match x.2 with | .ok _ => true | .error _ => false).length

/-- The conversation `c` of a visitor over a sequence, after which it returns `r`.  It asks for the next element each time,
depending on the answers before; `answered before i a` says whether `a` is the answer to the request for an element of type `i`. -/
def SeqTalk (seq : List (Res (Option α)) → SeqAction ι α)
    (answered : List (ι × Res (Option α)) → ι → Res (Option α) → Prop) (c : List (ι × Res (Option α))) (r : Res α) : Prop :=
  (∀ before i a later, c = before ++ (i, a) :: later → seq (replies before) = .next i ∧ answered before i a) ∧
  seq (replies c) = .finish r

/-- A request to a map. -/
inductive Ask (ι : Type) where
  | key (i : ι)
  | value (i : ι)

/-- How many keys were asked for. -/
def keysAsked : List (Ask ι × Res (Option α)) → Nat
  | [] => 0
  | (.key _, _) :: c => keysAsked c + 1
  | (.value _, _) :: c => keysAsked c

/-- The same for maps. -/
def MapTalk (map : List (Res (Option α)) → MapAction ι α)
    (answered : List (Ask ι × Res (Option α)) → Ask ι → Res (Option α) → Prop) (c : List (Ask ι × Res (Option α)))
    (r : Res α) : Prop :=
  (∀ before i a later, c = before ++ (i, a) :: later →
    map (replies before) = (match i with | .key i => .key i | .value i => .value i) ∧ answered before i a) ∧
  map (replies c) = .finish r

end

section
variable {ι α : Type} [Platform] [FloatLib] [TextLib]

/-- The visitor method that is called for a value without parts, and with what. -/
inductive Says : Value → Scalar → Prop
  | boolean (b : Bool) : Says (.boolean b) (.bool b)
  | sbyte (n : Int) : Says (.sbyte n) (.i8 n)
  | int16 (n : Int) : Says (.int16 n) (.i16 n)
  | int32 (n : Int) : Says (.int32 n) (.i32 n)
  | int64 (n : Int) : Says (.int64 n) (.i64 n)
  | byte (n : Nat) : Says (.byte n) (.u8 n)
  | uint16 (n : Nat) : Says (.uint16 n) (.u16 n)
  | uint32 (n : Nat) : Says (.uint32 n) (.u32 n)
  | uint64 (n : Nat) : Says (.uint64 n) (.u64 n)
  | single (b : Nat) : Says (.single b) (.f32 b)
  | double (b : Nat) : Says (.double b) (.f64 b)
  | char (c : Nat) : Says (.char c) (.char c)
  | decimal (d : Dec) : Says (.decimal d) (.string (Platform.decimalToStr d))
  | timeSpan (n : Int) : Says (.timeSpan n) (.i64 n)
  | dateTime (n : Int) : Says (.dateTime n) (.i64 n)
  | string (s : Str) : Says (.string s) (.borrowedStr s)
  | null : Says .null .unit

/-- The answers over an array: the `k`-th request is answered with the `k`-th element, as the type asked for; after the
last element the answer is `None`. -/
def ArrayAnswer (impls : ι → Impl ι α) (vs : List Value) (before : List (ι × Res (Option α))) (i : ι) (a : Res (Option α)) : Prop :=
  match vs[before.length]? with
  | some v => ∃ x, Deserialize impls v i x ∧ a = x.map some
  | none => a = .ok none

/-- The answers over a generic list: as for arrays, as long as fewer than `size` requests were answered without error,
and `None` afterwards. -/
def ListAnswer (impls : ι → Impl ι α) (vs : List Value) (size : Nat) (before : List (ι × Res (Option α))) (i : ι)
    (a : Res (Option α)) : Prop :=
  if successes before < size then ArrayAnswer impls vs before i a else a = .ok none

/-- What a type makes of the name of a member: it is told the name, unless it is an enum, which is told a variant. -/
def asKey (scalar : Str → Scalar) (k : Str) : Impl ι α → Res α
  | .call m V after => after (if m = .enum then V.enum k else V.scalar (scalar k))
  | .ignore r => r

/-- The answers over the members of an object: the keys one after the other (as `visit_str` or `visit_borrowed_str`), then `None`;
and the value for the key handed out last, once. -/
def MapAnswer (impls : ι → Impl ι α) (scalar : Str → Scalar) (ms : List (Str × Value)) (before : List (Ask ι × Res (Option α))) :
    Ask ι → Res (Option α) → Prop
  | .key i, a =>
    match ms[keysAsked before]? with
    | some (k, _) => a = (asKey scalar k (impls i)).map some
    | none => a = .ok none
  | .value i, a =>
    ∃ earlier j b mid k v x, before = earlier ++ (.key j, b) :: mid ∧ ms[keysAsked earlier]? = some (k, v) ∧
      -- since then, only the end of the map was asked for
      (mid = [] ∨ keysAsked earlier + 1 = ms.length ∧ ∀ y ∈ mid, ∃ i', y.1 = .key i') ∧
      Deserialize impls v i x ∧ a = x.map some

end

/-- The last answer was an element, key or value. -/
def Got {α : Type} (a : Res (Option α)) : Prop := ∃ x, a = .ok (some x)

/-- Types that deserialise as one should: after an error or the end of a sequence or map they return, they ask for a
value only right after its key, and an option does not ask for itself again. -/
structure Orderly {ι α : Type} (impls : ι → Impl ι α) : Prop where
  seq : ∀ {i m V f}, impls i = .call m V f → ∀ h a, ¬ Got a → ∃ r, V.seq (h ++ [a]) = .finish r
  map : ∀ {i m V f}, impls i = .call m V f → ∀ n h a, ¬ Got a → ∃ r, V.map n (h ++ [a]) = .finish r
  value : ∀ {i m V f}, impls i = .call m V f → ∀ n h j, (∀ a ∈ h, Got a) → V.map n h = .value j →
    ∃ h' a j', h = h' ++ [a] ∧ V.map n h' = .key j'
  option : ∃ rank : ι → Nat, ∀ {i V f j g}, impls i = .call .option V f → V.some = .deserialize j g → rank j < rank i

end Nrbf.Visitors
