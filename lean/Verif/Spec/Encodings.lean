import Verif.Spec.Message

/-! # The ways to write a value

`RecordOf id v ts`: the pieces `ts`, one after the other, are a record with object id `id` that stands for `v`.  The
rules leave open everything a writer can choose: the ids, which objects and strings are written in place and which
by reference, which class record is used and with which member types, how nulls are grouped, where libraries are
declared.  What they ask for is that a referenced object is referenced once, and that its record comes after the
record that refers to it (and after the records for earlier references), which is the order in which the crate
looks for it.

Nothing here refers to the model's parsers. -/

set_option autoImplicit false

namespace Nrbf.Spec

/-- A piece of a written message. -/
inductive Token where
  | bytes (b : Bytes)
  /-- A BinaryLibrary record with these bytes. -/
  | library (id : Nat) (name : Str) (b : Bytes)
  /-- No bytes: from here on, the library must be known under this id. -/
  | needs (id : Nat) (name : Str)

/-- The bytes of a piece. -/
def Token.write : Token → Bytes
  | .bytes b => b
  | .library _ _ b => b
  | .needs _ _ => []

/-- The bytes of some pieces. -/
def written (ts : List Token) : Bytes := ts.flatMap Token.write

/-- Every library is declared once, and before it is needed; `known` are those already declared. -/
def Declared (known : Nat → Option Str) : List Token → Prop
  | [] => True
  | .bytes _ :: ts => Declared known ts
  | .library id name _ :: ts =>
    known id = none ∧ Declared (fun k => if k = id then some name else known k) ts
  | .needs id name :: ts => known id = some name ∧ Declared known ts

/-- At most `n` BinaryLibrary records. -/
def Libraries (n : Nat) (ts : List Token) : Prop :=
  ts.length ≤ n ∧ ∀ t ∈ ts, ∃ id name b, IsLibrary id name b ∧ t = .library id name b

mutual

/-- A value in place that is not an object, or a reference to a record `later`. -/
inductive InPlace [Platform] : Value → (b : Bytes) → (later : List Token) → Prop
  | primitive {v b} : IsTypedPrimitive v b → InPlace v b []
  | string {id s b} : IsObjectString id s b → InPlace (.string s) b []
  | null {b} : IsNulls 1 b → InPlace .null b []
  | reference {id b v ts} : IsReference id b → RecordOf id v ts → InPlace v b ts

/-- A member of a class or an element of an array, with its declared type: what is written in its place, and what is
written later. -/
inductive Elem [Platform] : Option MemberType → Value → (now later : List Token) → Prop
  -- no declared type
  | any {f v b l} : Libraries 1 f → InPlace v b l → Elem none v (f ++ [.bytes b]) l
  | anyObject {f id v ts} : Libraries 2 f → Obj id v ts → Elem none v (f ++ ts) []
  -- Object and ObjectArray
  | object {T f v b l} : T = .object ∨ T = .objectArray → Libraries 2 f → InPlace v b l →
      Elem (some T) v (f ++ [.bytes b]) l
  | objectObject {T f id v ts} : T = .object ∨ T = .objectArray → Libraries 3 f → Obj id v ts →
      Elem (some T) v (f ++ ts) []
  -- a primitive type; a bare value that starts like a BinaryLibrary record is excluded
  | primitive {t f v b} : Libraries 1 f → IsPrimitive t v b → b.head? ≠ some 12 →
      Elem (some (.primitive t)) v (f ++ [.bytes b]) []
  | string {f id s b} : Libraries 1 f → IsObjectString id s b →
      Elem (some .string) (.string s) (f ++ [.bytes b]) []
  -- SystemClass and Class
  | systemClass {name f id members ts} : Libraries 2 f → Obj id (.object name none members) ts →
      Elem (some (.systemClass name)) (.object name none members) (f ++ ts) []
  | systemClassNull {name f b} : Libraries 1 f → IsNulls 1 b →
      Elem (some (.systemClass name)) .null (f ++ [.bytes b]) []
  | class {name k library f g id members ts} : Libraries 1 f → Libraries 1 g → (f = [] → g = []) →
      Obj id (.object name (some library) members) ts →
      Elem (some (.class name k)) (.object name (some library) members) (f ++ .needs k library :: (g ++ ts)) []
  | classNull {name k library f b} : Libraries 1 f → IsNulls 1 b →
      Elem (some (.class name k)) .null (f ++ [.needs k library, .bytes b]) []
  -- StringArray: also the element type of string arrays
  | stringArrayString {f id s b} : Libraries 1 f → IsObjectString id s b →
      Elem (some .stringArray) (.string s) (f ++ [.bytes b]) []
  | stringArrayReference {f id b v ts} : Libraries 1 f → IsReference id b → RecordOf id v ts →
      Elem (some .stringArray) v (f ++ [.bytes b]) ts
  | stringArrayNull {f b} : Libraries 1 f → IsNulls 1 b →
      Elem (some .stringArray) .null (f ++ [.bytes b]) []
  -- PrimitiveArray
  | primitiveArray {t f id b v ts} : Libraries 1 f → IsReference id b → RecordOf id v ts →
      Elem (some (.primitiveArray t)) v (f ++ [.bytes b]) ts

/-- One member or element per declared type. -/
inductive Each [Platform] : List (Option MemberType) → List Value → (now later : List Token) → Prop
  | nil : Each [] [] [] []
  | cons {T Ts v vs n l ns ls} : Elem T v n l → Each Ts vs ns ls → Each (T :: Ts) (v :: vs) (n ++ ns) (l ++ ls)

/-- The elements of an object array (`T = none`) or a string array: nulls can be written as runs of any length. -/
inductive Elems [Platform] : Option MemberType → List Value → (now later : List Token) → Prop
  | nil {T} : Elems T [] [] []
  | cons {T v vs n l ns ls} : Elem T v n l → Elems T vs ns ls → Elems T (v :: vs) (n ++ ns) (l ++ ls)
  | nulls {T n f b vs ns ls} : Libraries 1 f → IsNulls n b → Elems T vs ns ls →
      Elems T (List.replicate n .null ++ vs) (f ++ .bytes b :: ns) ls

/-- An object: a class record, the members, and the records its members refer to. -/
inductive Obj [Platform] : (id : Nat) → Value → List Token → Prop
  | system {h b vs n l} : IsClassHead h b → h.library = none → h.memberNames.Nodup → Each h.memberTypes vs n l →
      Obj h.id (.object h.name none (h.memberNames.zip vs)) (.bytes b :: (n ++ l))
  | library {h b k library vs n l} : IsClassHead h b → h.library = some k → h.memberNames.Nodup →
      Each h.memberTypes vs n l →
      Obj h.id (.object h.name (some library) (h.memberNames.zip vs)) (.bytes b :: .needs k library :: (n ++ l))

/-- A record of its own. -/
inductive RecordOf [Platform] : (id : Nat) → Value → List Token → Prop
  | object {f id v ts} : Libraries 1 f → Obj id v ts → RecordOf id v (f ++ ts)
  | string {id s b} : IsObjectString id s b → RecordOf id (.string s) [.bytes b]
  | primitiveArray {id t vs b c} : IsPrimitiveArrayHead id vs.length t b → IsSeq (IsPrimitive t) vs c →
      RecordOf id (.array vs) [.bytes (b ++ c)]
  | objectArray {id vs b n l} : IsArrayHead 16 id vs.length b → Elems none vs n l →
      RecordOf id (.array vs) (.bytes b :: (n ++ l))
  | stringArray {id vs b n l} : IsArrayHead 17 id vs.length b → Elems (some .stringArray) vs n l →
      RecordOf id (.array vs) (.bytes b :: (n ++ l))
  -- row by row; a multi-dimensional array without elements is read as `[]`
  | array {id kind lengths T v vs b n l} : IsBinaryArrayHead id kind lengths T b →
      lengths ≠ [] → productUsize 1 lengths = some vs.length → Shaped lengths v vs →
      (vs = [] → v = .array []) → Each (List.replicate vs.length (some T)) vs n l → RecordOf id v (.bytes b :: (n ++ l))

end

/-- The call array of a method record, if there is one. -/
inductive Arguments [Platform] (root : Nat) : Option (List Value) → List Token → Prop
  | none : Arguments root none []
  | some {f vs b n l} : Libraries 1 f → IsArrayHead 16 root vs.length b → Elems Option.none vs n l →
      Arguments root (some vs) (f ++ .bytes b :: (n ++ l))

/-- The bytes `w` are a way to write the message `m`: a header, one record (or none for null), or a method record
with or without call array, and the end. -/
inductive Written [Platform] : RemotingMessage → (w : Bytes) → Prop
  | null {h} : IsHeader 0 h → Written (.value .null) (h ++ [11])
  | value {root h v ts} : IsHeader root h → RecordOf root v ts → Declared (fun _ => none) ts →
      Written (.value v) (h ++ written ts ++ [11])
  | call {root h f name type context inline b callArray args ts} : IsHeader root h → FlagsOk f →
      IsMethodCall f name type context inline b → Arguments root callArray ts → Declared (fun _ => none) ts →
      ArgsFrom f callArray inline args →
      Written (.methodCall ⟨name, type, context, args⟩) (h ++ b ++ written ts ++ [11])
  | return {root h f value context inline b callArray args ts} : IsHeader root h → FlagsOk f →
      IsMethodReturn f value context inline b → Arguments root callArray ts → Declared (fun _ => none) ts →
      ArgsFrom f callArray inline args →
      Written (.methodReturn ⟨value, context, args⟩) (h ++ b ++ written ts ++ [11])

end Nrbf.Spec
