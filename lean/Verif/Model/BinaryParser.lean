import Verif.Model.Record

/-! # The stateful parser (`/repo/src/binary_parser/mod.rs`) -/

namespace Nrbf

/-! ## Maps -/

/-- `BTreeMap<K, V>` and `HashMap<K, V>`: an association list with at most one entry per key (that
the operations keep the keys distinct is proved).  No operation the crate uses depends on the
order. -/
abbrev AMap (κ ν : Type) := List (κ × ν)

namespace AMap
variable {κ ν : Type} [DecidableEq κ]

/-- `map.get(k)`. -/
def get? : AMap κ ν → κ → Option ν
  | [], _ => none
  | (k', v) :: m, k => if k' = k then some v else get? m k

/-- `map.insert(k, v)`: replaces an existing entry. -/
def insert : AMap κ ν → κ → ν → AMap κ ν
  | [], k, v => [(k, v)]
  | (k', v') :: m, k, v => if k' = k then (k, v) :: m else (k', v') :: insert m k v

/-- `map.remove(k)`, the map afterwards. -/
def erase (m : AMap κ ν) (k : κ) : AMap κ ν := m.filter fun e => e.1 ≠ k

/-- `HashMap::from_iter`: later entries replace earlier ones with the same key. -/
def fromIter (l : List (κ × ν)) : AMap κ ν := l.foldl (fun m e => m.insert e.1 e.2) []

end AMap

/-! ## State -/

/-- `/repo/src/binary_parser/mod.rs:55-59` `BinaryParser`. -/
structure St where
  libs : AMap Nat Str
  classes : AMap Nat Class
  objects : AMap Nat Value
  deriving Repr

/-- `BinaryParser::default()`. -/
def St.init : St := ⟨[], [], []⟩

/-- `/repo/src/binary_parser/mod.rs:30-34` `ValueOrRef`. -/
inductive ValueOrRef where
  | value (v : Value)
  | null (count : Nat)
  | ref (id : Nat)
  deriving Repr

/-- The result of a `&mut self` parser: the outcome and the state afterwards.  The state is kept
when the outcome is an error: nothing in the crate rolls it back. -/
abbrev Res (α : Type) := Outcome Error α × St

/-- A `&mut self` parser. -/
abbrev SP (α : Type) := St → Bytes → Res α

/-- `let (input, a) = …?;` followed by the rest of the function. -/
def Res.bind {α β : Type} (x : Res α) (f : α → St → Bytes → Res β) : Res β :=
  match x with
  | (.ok r a, s) => f a s r
  | (.error e, s) => (.error e, s)
  | (.failure e, s) => (.failure e, s)
  | (.panic, s) => (.panic, s)
  | (.diverge, s) => (.diverge, s)

/-- `nom::combinator::map` on a `&mut self` parser. -/
def Res.map {α β : Type} (f : α → β) (x : Res α) : Res β := (x.1.map f, x.2)

/-- A stateless parser called from a `&mut self` parser. -/
def lift {α : Type} (p : Parser α) : SP α := fun s i => (p i, s)

/-- `nom::multi::count` over a `&mut self` parser. -/
def countS {α : Type} (p : SP α) : Nat → SP (List α)
  | 0 => fun s i => (.ok i [], s)
  | n + 1 => fun s i =>
    (p s i).bind fun a s i => (countS p n s i).map (a :: ·)

/-- `nom::combinator::opt` over a `&mut self` parser. -/
def optS {α : Type} (p : SP α) : SP (Option α) := fun s i =>
  match p s i with
  | (.error _, s) => (.ok i none, s)
  | r => r.map some

/-- `/repo/src/binary_parser/mod.rs:61-75` `alt_mut!`: every alternative gets the same input, and
the state the failed ones left behind. -/
def altMut {α : Type} : List (SP α) → SP α
  | [] => fun s i => (.error (Error.fromErrorKind i .alt), s)
  | p :: ps => fun s i =>
    match p s i with
    | (.error _, s) => altMut ps s i
    | r => r

/-! ## Member references -/

/-- `/repo/src/binary_parser/mod.rs:78-90` `parse_binary_library`. -/
def parseBinaryLibrary : SP Unit := fun s i =>
  (lift (opt BinaryLibrary.parse) s i).bind fun lib s i =>
    match lib with
    | some l =>
      let s' := { s with libs := s.libs.insert l.libraryId l.libraryName }
      if (s.libs.get? l.libraryId).isSome then (.failure ⟨i, .duplicateLibraryId⟩, s')
      else (.ok i (), s')
    | none => (.ok i (), s)

/-- `/repo/src/binary_parser/mod.rs:455-462` `parse_null_object`. -/
def parseNullObject : Parser ValueOrRef := fun i =>
  (alt ObjectNull.parse [ObjectNullMultiple.parse, ObjectNullMultiple256.parse] i).map .null

/-- `map(BinaryObjectString::parse, |s| ValueOrRef::Value(Value::String(s.as_str())))`. -/
def stringMember : Parser ValueOrRef := fun i =>
  (BinaryObjectString.parse i).map fun s => .value (.string s.value)

/-- `map(MemberReference::parse, |r| ValueOrRef::Ref(RefId(r.id_ref)))`. -/
def refMember : Parser ValueOrRef := fun i => (MemberReference.parse i).map .ref

/-- `/repo/src/binary_parser/mod.rs:93-169` `parse_member_reference(input, None)`; `classes` is
`parse_classes`. -/
def memberReferenceNone [Platform] (classes : SP (Nat × Object)) : SP ValueOrRef := fun s i =>
  (parseBinaryLibrary s i).bind fun _ s i =>
    match alt (fun i => (memberPrimitiveTyped i).map fun p => .value p.intoValue)
        [refMember, stringMember, parseNullObject] i with
    | .error _ => (classes s i).map fun o => .value o.2.toValue
    | r => (r, s)

/-- `/repo/src/binary_parser/mod.rs:111-121` and `:131-139`: the class a typed member expects. -/
def expectedClass (classes : SP (Nat × Object)) (name : Str) (library : Option Str) :
    SP ValueOrRef := fun s i =>
  match classes s i with
  | (.ok r o, s) =>
    if o.2.cls ≠ name ∨ o.2.library ≠ library then (.failure ⟨r, .unexpectedClass⟩, s)
    else (.ok r (.value o.2.toValue), s)
  | (.error _, s) | (.failure _, s) => (parseNullObject i, s)
  | (.panic, s) => (.panic, s)
  | (.diverge, s) => (.diverge, s)

/-- `/repo/src/binary_parser/mod.rs:93-169`
`parse_member_reference(input, Some((type_enum, additional_type_info)))`. -/
def memberReference [Platform] (classes : SP (Nat × Object)) (t : BinaryType)
    (info : Option AdditionalTypeInfo) : SP ValueOrRef := fun s i =>
  (parseBinaryLibrary s i).bind fun _ s i =>
    match t, info with
    | .primitive, some (.primitive p) =>
      lift (fun i => (memberPrimitiveUnTyped p i).map fun p => .value p.intoValue) s i
    | .string, none => lift stringMember s i
    | .object, none => memberReferenceNone classes s i
    | .systemClass, some (.systemClass name) => expectedClass classes name none s i
    | .class, some (.class c) =>
      match s.libs.get? c.libraryId with
      | some library => expectedClass classes c.typeName (some library) s i
      | none => (.failure ⟨i, .missingLibraryId⟩, s)
    | .objectArray, none => memberReferenceNone classes s i
    | .stringArray, none => lift (alt stringMember [refMember, parseNullObject]) s i
    | .primitiveArray, some (.primitive _) => lift refMember s i
    | _, _ => (.panic, s)

/-- `/repo/src/binary_parser/mod.rs:171-187` `parse_members_with_type_info`; the argument is the
zip of the two lists of the `MemberTypeInfo`. -/
def membersWithTypeInfo [Platform] (classes : SP (Nat × Object)) :
    List (BinaryType × Option AdditionalTypeInfo) → SP (List ValueOrRef)
  | [] => fun s i => (.ok i [], s)
  | (t, info) :: ts => fun s i =>
    (memberReference classes t info s i).bind fun m s i =>
      (membersWithTypeInfo classes ts s i).map (m :: ·)

/-- `/repo/src/binary_parser/mod.rs:207-220`: one `ValueOrRef::Ref(id)` of `resolve_members`;
`referenceable` is `parse_referenceable`. -/
def resolveRef (referenceable : SP Nat) (id : Nat) : SP Value := fun s i =>
  match s.objects.get? id with
  | some v => (.ok i v, { s with objects := s.objects.erase id })
  | none =>
    match referenceable s i with
    | (.ok r id2, s) =>
      if id2 = id then
        match s.objects.get? id2 with
        | some v => (.ok r v, { s with objects := s.objects.erase id2 })
        | none => (.failure ⟨r, .unresolvableMemberReference⟩, s)
      else (.error (Error.fromErrorKind i .verify), s)
    | (.error e, s) => (.error e, s)
    | (.failure e, s) => (.failure e, s)
    | (.panic, s) => (.panic, s)
    | (.diverge, s) => (.diverge, s)

/-- `/repo/src/binary_parser/mod.rs:190-225` `resolve_members`. -/
def resolveMembers (referenceable : SP Nat) : List ValueOrRef → SP (List Value)
  | [] => fun s i => (.ok i [], s)
  | .value v :: ms => fun s i => (resolveMembers referenceable ms s i).map (v :: ·)
  | .null n :: ms => fun s i =>
    (resolveMembers referenceable ms s i).map (List.replicate n .null ++ ·)
  | .ref id :: ms => fun s i =>
    (resolveRef referenceable id s i).bind fun v s i =>
      (resolveMembers referenceable ms s i).map (v :: ·)

/-! ## Classes -/

/-- `/repo/src/binary_parser/mod.rs:231-251`: the class header. -/
def classHeader : SP (Nat × Class) := fun s i =>
  match ClassWithId.parse i with
  | .ok r c =>
    match s.classes.get? c.metadataId with
    | some cls => (.ok r (c.objectId, cls), s)
    | none => (.failure ⟨i, .missingMetadataId⟩, s)
  | .error _ =>
    ((alt ClassWithMembers.parse
      [ClassWithMembersAndTypes.parse, SystemClassWithMembers.parse,
       SystemClassWithMembersAndTypes.parse] i).map fun c => (c.objectId, c), s)
  | .failure e => (.failure e, s)
  | .panic => (.panic, s)
  | .diverge => (.diverge, s)

/-- `/repo/src/binary_parser/mod.rs:257-294`: the library of the class, and its members before
resolution.  `errInput` is the position of the class header. -/
def classMembers [Platform] (classes : SP (Nat × Object)) (errInput : Bytes) (c : Class) :
    SP (Option Str × List ValueOrRef) := fun s i =>
  match c with
  | .classWithMembers info lib =>
    match s.libs.get? lib with
    | some library =>
      (countS (memberReferenceNone classes) info.memberNames.length s i).map (some library, ·)
    | none => (.failure ⟨errInput, .missingLibraryId⟩, s)
  | .classWithMembersAndTypes _ types lib =>
    match s.libs.get? lib with
    | some library =>
      (membersWithTypeInfo classes (types.binaryTypeEnums.zip types.additionalInfos) s i).map
        (some library, ·)
    | none => (.failure ⟨errInput, .missingLibraryId⟩, s)
  | .systemClassWithMembers info =>
    (countS (memberReferenceNone classes) info.memberNames.length s i).map (none, ·)
  | .systemClassWithMembersAndTypes _ types =>
    (membersWithTypeInfo classes (types.binaryTypeEnums.zip types.additionalInfos) s i).map
      (none, ·)

/-- `/repo/src/binary_parser/mod.rs:228-309` `parse_classes`.  `classes` and `referenceable` are the
recursive calls. -/
def classesBody [Platform] (classes : SP (Nat × Object)) (referenceable : SP Nat) :
    SP (Nat × Object) := fun s i =>
  (parseBinaryLibrary s i).bind fun _ s errInput =>
  (classHeader s errInput).bind fun (objectId, cls) s i =>
    if (s.classes.get? objectId).isSome then (.failure ⟨i, .duplicateObjectId⟩, s)
    else
      (classMembers classes errInput cls s i).bind fun (library, members) s i =>
      (resolveMembers referenceable members s i).bind fun values s i =>
        (.ok i (objectId,
          { cls := cls.classInfo.name
            library := library
            members := AMap.fromIter (cls.classInfo.memberNames.zip values) }), s)

/-! ## Arrays -/

/-- `/repo/src/binary_parser/mod.rs:315-332` and `:361-378`: the `while members.len() < len` loop.
`fuel` bounds the number of iterations; running out of it is reported as `diverge` (and proved
impossible). -/
def arrayLoop (element : SP ValueOrRef) : (fuel : Nat) → (len : Nat) → (acc : List ValueOrRef) →
    SP (List ValueOrRef)
  | 0, len, acc => fun s i => if acc.length < len then (.diverge, s) else (.ok i acc, s)
  | fuel + 1, len, acc => fun s i =>
    if acc.length < len then
      (element s i).bind fun m s i =>
        match m with
        | .null n => arrayLoop element fuel len (acc ++ List.replicate n (.value .null)) s i
        | m => arrayLoop element fuel len (acc ++ [m]) s i
    else (.ok i acc, s)

/-- `/repo/src/binary_parser/mod.rs:312-338` `parse_array_single_object`. -/
def arraySingleObject [Platform] (classes : SP (Nat × Object)) (referenceable : SP Nat) :
    SP (Nat × List Value) := fun s i =>
  (lift ArraySingleObject.parse s i).bind fun info s i =>
  (arrayLoop (memberReferenceNone classes) info.length info.length [] s i).bind fun members s i =>
  (resolveMembers referenceable members s i).map fun vs => (info.objectId, vs)

/-- `/repo/src/binary_parser/mod.rs:341-355` `parse_array_single_primitive`. -/
def arraySinglePrimitive [Platform] : SP (Nat × List Value) := lift fun i =>
  (ArraySinglePrimitive.parse i).bind fun (info, t) i =>
  (count (fun i => (memberPrimitiveUnTyped t i).map Prim.intoValue) info.length i).map
    fun vs => (info.objectId, vs)

/-- `/repo/src/binary_parser/mod.rs:358-384` `parse_array_single_string`. -/
def arraySingleString [Platform] (classes : SP (Nat × Object)) (referenceable : SP Nat) :
    SP (Nat × List Value) := fun s i =>
  (lift ArraySingleString.parse s i).bind fun info s i =>
  (arrayLoop (memberReference classes .stringArray none) info.length info.length [] s i).bind
    fun members s i =>
  (resolveMembers referenceable members s i).map fun vs => (info.objectId, vs)

/-- `usize::MAX`. -/
def usizeMax [Platform] : Nat := 2 ^ usizeBits - 1

/-- `/repo/src/binary_parser/mod.rs:392-395`: `try_fold(1usize, |acc, n| acc.checked_mul(n))`. -/
def checkedProduct [Platform] (acc : Nat) : List Nat → Option Nat
  | [] => some acc
  | n :: ns => if acc * n ≤ usizeMax then checkedProduct (acc * n) ns else none

/-- The result of a loop that returns, panics or never ends. -/
inductive Loop (α : Type) where
  | done (a : α)
  | panic
  | diverge
  deriving Repr

/-- `/repo/src/binary_parser/mod.rs:411-413`: `while !members.is_empty()` with
`members.drain(0..l)`, which panics when `l` exceeds the length and removes nothing when `l = 0`. -/
def chunks (l : Nat) : (fuel : Nat) → List Value → Loop (List Value)
  | _, [] => .done []
  | 0, _ :: _ => .diverge
  | fuel + 1, m :: ms =>
    if (m :: ms).length < l then .panic
    else
      match chunks l fuel ((m :: ms).drop l) with
      | .done cs => .done (.array ((m :: ms).take l) :: cs)
      | r => r

/-- `/repo/src/binary_parser/mod.rs:407-416`: the loop over `lengths.into_iter().skip(1).rev()`
(the argument). -/
def reshape : List Nat → List Value → Loop (List Value)
  | [], ms => .done ms
  | l :: ls, ms =>
    match chunks l ms.length ms with
    | .done cs => reshape ls cs
    | r => r

/-- `/repo/src/binary_parser/mod.rs:387-419` `parse_binary_array`. -/
def binaryArray [Platform] (classes : SP (Nat × Object)) (referenceable : SP Nat) :
    SP (Nat × List Value) := fun s errInput =>
  (lift BinaryArray.parse s errInput).bind fun a s i =>
    match checkedProduct 1 a.lengths with
    | none => (.failure ⟨errInput, .invalidLength⟩, s)
    | some n =>
      (countS (memberReference classes a.typeEnum a.additionalTypeInfo) n s i).bind fun members s i =>
      (resolveMembers referenceable members s i).bind fun vs s i =>
        match reshape (a.lengths.drop 1).reverse vs with
        | .done vs => (.ok i (a.objectId, vs), s)
        | .panic => (.panic, s)
        | .diverge => (.diverge, s)

/-- `/repo/src/binary_parser/mod.rs:422-431` `parse_arrays`. -/
def arraysBody [Platform] (classes : SP (Nat × Object)) (referenceable : SP Nat) :
    SP (Nat × List Value) := fun s i =>
  (parseBinaryLibrary s i).bind fun _ s i =>
    altMut [arraySingleObject classes referenceable, arraySinglePrimitive,
      arraySingleString classes referenceable, binaryArray classes referenceable] s i

/-! ## Referenceables: tying the knot -/

/-- `/repo/src/binary_parser/mod.rs:434-452` `parse_referenceable`; `parseClasses` and `parseArrays`
are the functions of that name. -/
def referenceableBody (parseClasses : SP (Nat × Object)) (parseArrays : SP (Nat × List Value)) :
    SP Nat := fun s i =>
  (altMut
    [fun s i => (parseClasses s i).map fun o => (o.1, o.2.toValue),
     fun s i => (parseArrays s i).map fun a => (a.1, Value.array a.2),
     lift fun i => (BinaryObjectString.parse i).map fun b => (b.objectId, Value.string b.value)]
    s i).bind fun (id, v) s i =>
      (.ok i id, { s with objects := s.objects.insert id v })

/-- The two mutually recursive functions of the parser. -/
structure Rec where
  classes : SP (Nat × Object)
  referenceable : SP Nat

/-- `parse_classes` and `parse_referenceable`, with at most `depth` nested calls.  Running out of
depth is reported as `diverge`.  Every nested call starts after at least one more byte has been
consumed, so `input.len() + 1` levels always suffice (proved). -/
def recAt [Platform] : Nat → Rec
  | 0 => ⟨fun s _ => (.diverge, s), fun s _ => (.diverge, s)⟩
  | depth + 1 =>
    let r := recAt depth
    let classes := classesBody r.classes r.referenceable
    ⟨classes, referenceableBody classes (arraysBody r.classes r.referenceable)⟩

/-- `/repo/src/binary_parser/mod.rs:228-309` `parse_classes`. -/
def parseClasses [Platform] : SP (Nat × Object) := fun s i => (recAt (i.length + 1)).classes s i

/-- `/repo/src/binary_parser/mod.rs:434-452` `parse_referenceable`. -/
def parseReferenceable [Platform] : SP Nat := fun s i => (recAt (i.length + 1)).referenceable s i

/-- `/repo/src/binary_parser/mod.rs:312-338` `parse_array_single_object`. -/
def parseArraySingleObject [Platform] : SP (Nat × List Value) :=
  arraySingleObject parseClasses parseReferenceable

/-! ## Method calls and returns -/

/-- `/repo/src/binary_parser/mod.rs:464-478` `parse_call_array`. -/
def parseCallArray [Platform] (rootId : Option Nat) : SP (List Value) := fun s i =>
  (parseBinaryLibrary s i).bind fun _ s i =>
  (parseArraySingleObject s i).bind fun (id, vs) s i =>
    if some id ≠ rootId then (.failure ⟨i, .invalidCallArrayId⟩, s) else (.ok i vs, s)

/-- `/repo/src/binary_parser/mod.rs:492-510` and `:536-554`: the closure `parse_args`; `none` is the
`InvalidArgs` failure. -/
def parseArgs (flags : BitVec 32) (callArray : Option (List Value))
    (inline : Option (List ValueWithCode)) : Option (Option (List Value)) :=
  if MessageFlags.intersects flags MessageFlags.ARGS_IS_ARRAY then
    match callArray with
    | some vs => some (some vs)
    | none => none
  else if MessageFlags.intersects flags MessageFlags.ARGS_IN_ARRAY then
    match callArray with
    | some (.array args :: _) => some (some args)
    | _ => none
  else some (inline.map ArrayOfValueWithCode.intoValues)

/-- `/repo/src/binary_parser/mod.rs:481-522` `parse_method_call`. -/
def parseMethodCall [Platform] (rootId : Option Nat) : SP MethodCall := fun s i =>
  (parseBinaryLibrary s i).bind fun _ s i =>
  (lift BinaryMethodCall.parse s i).bind fun call s i =>
  (optS (parseCallArray rootId) s i).bind fun callArray s i =>
    match parseArgs call.messageEnum callArray call.args with
    | some args => (.ok i ⟨call.methodName, call.typeName, call.callContext, args⟩, s)
    | none => (.failure ⟨i, .invalidArgs⟩, s)

/-- `/repo/src/binary_parser/mod.rs:525-565` `parse_method_return`. -/
def parseMethodReturn [Platform] (rootId : Option Nat) : SP MethodReturn := fun s i =>
  (parseBinaryLibrary s i).bind fun _ s i =>
  (lift BinaryMethodReturn.parse s i).bind fun ret s i =>
  (optS (parseCallArray rootId) s i).bind fun callArray s i =>
    match parseArgs ret.messageEnum callArray ret.args with
    | some args =>
      (.ok i ⟨ret.returnValue.map ValueWithCode.intoValue, ret.callContext, args⟩, s)
    | none => (.failure ⟨i, .invalidArgs⟩, s)

/-- `/repo/src/binary_parser/mod.rs:568-577` `parse_method_call_or_return`. -/
def parseMethodCallOrReturn [Platform] (rootId : Option Nat) : SP (MethodCall ⊕ MethodReturn) :=
  altMut
    [fun s i => (parseMethodCall rootId s i).map .inl,
     fun s i => (parseMethodReturn rootId s i).map .inr]

/-! ## Messages -/

/-- `/repo/src/binary_parser/mod.rs:579-594` `parse_referenceables`.  Every iteration consumes at
least one byte, so `input.len() + 1` iterations suffice (proved). -/
def referenceablesLoop [Platform] : (fuel : Nat) → SP Unit
  | 0 => fun s _ => (.diverge, s)
  | fuel + 1 => fun s i =>
    match parseReferenceable s i with
    | (.ok r _, s) => referenceablesLoop fuel s r
    | (.error _, s) => (.ok i (), s)
    | (.failure e, s) => (.failure e, s)
    | (.panic, s) => (.panic, s)
    | (.diverge, s) => (.diverge, s)

/-- `/repo/src/binary_parser/mod.rs:579-594` `parse_referenceables`. -/
def parseReferenceables [Platform] : SP Unit := fun s i => referenceablesLoop (i.length + 1) s i

/-- `/repo/src/binary_parser/mod.rs:612-627`: the message that is returned after the `MessageEnd`
record.  `i` is the (empty) remaining input. -/
def selectRoot (rootId : Option Nat) (m : Option (MethodCall ⊕ MethodReturn)) :
    SP RemotingMessage := fun s i =>
  match m with
  | some (.inl c) => (.ok i (.methodCall c), s)
  | some (.inr r) => (.ok i (.methodReturn r), s)
  | none =>
    match rootId with
    | some id =>
      match s.objects.get? id with
      | some v => (.ok i (.value v), { s with objects := s.objects.erase id })
      | none => (.error ⟨i, .missingRootObject⟩, s)
    | none => (.ok i (.value .null), s)

/-- `/repo/src/binary_parser/mod.rs:597-630` `parse_remoting_message`. -/
def parseRemotingMessage [Platform] : SP RemotingMessage := fun s i =>
  (lift SerializationHeader.parse s i).bind fun header s i =>
  (parseReferenceables s i).bind fun _ s i =>
  (optS (parseMethodCallOrReturn header.rootId) s i).bind fun m s i =>
  (parseReferenceables s i).bind fun _ s i =>
  (lift MessageEnd.parse s i).bind fun _ s i =>
    if i.isEmpty then selectRoot header.rootId m s i
    else (.error ⟨i, .trailingData⟩, s)

/-- What a call of the public API does: return a value, return an error, panic, or never return. -/
inductive ApiResult (α : Type) where
  | ok (a : α)
  | err (e : Error)
  | panic
  | hang
  deriving Repr

/-- `/repo/src/binary_parser/mod.rs:633-638` `BinaryParser::deserialize`, and
`/repo/src/remoting_message.rs:75-78` `RemotingMessage::parse`. -/
def deserialize [Platform] (input : Bytes) : ApiResult RemotingMessage :=
  match (parseRemotingMessage St.init input).1 with
  | .ok _ m => .ok m
  | .error e | .failure e => .err e
  | .panic => .panic
  | .diverge => .hang

end Nrbf
