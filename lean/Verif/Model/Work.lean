import Verif.Model.BinaryParser

/-! # The work of the stateful parser

The parser of `/repo/src/binary_parser/mod.rs` once more, with a counter.  The counter is increased by

* every attempt to read a record (or an untyped primitive) that succeeds: one, plus the bytes that are consumed;
* every such attempt that ends in a `Failure`: one, plus all the bytes that are left;
* every such attempt that ends in a recoverable `Error`, so that the caller tries something else at the same place:
  the price of such an attempt, which is a parameter.  With price 1 the attempts are counted.  Mostly such an attempt
  looks at one byte only, but if a string is not valid UTF-8, then it looks at everything up to there
  (`C62_quadratic`);
* every reference that is looked up: one.

Not counted: building the values (null runs are expanded, arrays are reshaped, maps are filled), which
is bounded by the size of the result.

That the results are those of `Model/BinaryParser.lean` is proved (`C62_same`). -/

set_option autoImplicit false

namespace Nrbf

/-- A result with the work that was spent. -/
abbrev Timed (α : Type) := Res α × Nat

/-- A counting `&mut self` parser. -/
abbrev TP (α : Type) := St → Bytes → Timed α

variable {α β : Type}

/-- The price of an attempt to read a record that ends in a recoverable error. -/
class Price where
  miss : Bytes → Nat

/-- The work of an attempt to read a record from `i`. -/
def leafWork [Price] (i : Bytes) : Outcome Error α → Nat
  | .ok r _ => (i.length - r.length) + 1
  | .error _ => Price.miss i
  | .failure _ | .panic | .diverge => i.length + 1

/-- `let (input, a) = …?;` followed by the rest of the function. -/
def Timed.bind (x : Timed α) (f : α → St → Bytes → Timed β) : Timed β :=
  match x with
  | ((.ok r a, s), n) => ((f a s r).1, n + (f a s r).2)
  | ((.error e, s), n) => ((.error e, s), n)
  | ((.failure e, s), n) => ((.failure e, s), n)
  | ((.panic, s), n) => ((.panic, s), n)
  | ((.diverge, s), n) => ((.diverge, s), n)

/-- `nom::combinator::map`. -/
def Timed.map (f : α → β) (x : Timed α) : Timed β := (x.1.map f, x.2)

/-- A result that is there without work. -/
def free (x : Res α) : Timed α := (x, 0)

/-- One record. -/
def readT [Price] (p : Parser α) : TP α := fun s i => ((p i, s), leafWork i (p i))

/-- The work of `nom::branch::alt`. -/
def altWork [Price] (p : Parser α) : List (Parser α) → Bytes → Nat
  | [], i => leafWork i (p i)
  | q :: qs, i =>
    match p i with
    | .error _ => Price.miss i + altWork q qs i
    | r => leafWork i r

/-- One of several records. -/
def readAltT [Price] (p : Parser α) (ps : List (Parser α)) : TP α := fun s i => ((alt p ps i, s), altWork p ps i)

/-- `nom::multi::count`. -/
def countT (p : TP α) : Nat → TP (List α)
  | 0 => fun s i => free (.ok i [], s)
  | n + 1 => fun s i => (p s i).bind fun a s i => (countT p n s i).map (a :: ·)

/-- `nom::combinator::opt`. -/
def optT (p : TP α) : TP (Option α) := fun s i =>
  match p s i with
  | ((.error _, s), n) => ((.ok i none, s), n)
  | r => r.map some

/-- `/repo/src/binary_parser/mod.rs:61-75` `alt_mut!`. -/
def altMutT : List (TP α) → TP α
  | [] => fun s i => free (.error (Error.fromErrorKind i .alt), s)
  | p :: ps => fun s i =>
    match p s i with
    | ((.error _, s), n) => ((altMutT ps s i).1, n + (altMutT ps s i).2)
    | r => r

/-- `/repo/src/binary_parser/mod.rs:78-90` `parse_binary_library`. -/
def binaryLibraryT [Price] : TP Unit := fun s i => (parseBinaryLibrary s i, leafWork i (BinaryLibrary.parse i))

/-- `/repo/src/binary_parser/mod.rs:93-169` `parse_member_reference(input, None)`. -/
def memberReferenceNoneT [Price] [Platform] (classes : TP (Nat × Object)) : TP ValueOrRef := fun s i =>
  (binaryLibraryT s i).bind fun _ s i =>
    match readAltT (fun i => (memberPrimitiveTyped i).map fun p => .value p.intoValue)
        [refMember, stringMember, parseNullObject] s i with
    | ((.error _, s), n) => (((classes s i).map fun o => .value o.2.toValue).1, n + (classes s i).2)
    | r => r

/-- `/repo/src/binary_parser/mod.rs:111-121` and `:131-139`. -/
def expectedClassT [Price] (classes : TP (Nat × Object)) (name : Str) (library : Option Str) : TP ValueOrRef := fun s i =>
  match classes s i with
  | ((.ok r o, s), n) =>
    if o.2.cls ≠ name ∨ o.2.library ≠ library then ((.failure ⟨r, .unexpectedClass⟩, s), n)
    else ((.ok r (.value o.2.toValue), s), n)
  | ((.error _, s), n) | ((.failure _, s), n) =>
    ((parseNullObject i, s), n + altWork ObjectNull.parse [ObjectNullMultiple.parse, ObjectNullMultiple256.parse] i)
  | ((.panic, s), n) => ((.panic, s), n)
  | ((.diverge, s), n) => ((.diverge, s), n)

/-- `/repo/src/binary_parser/mod.rs:93-169`
`parse_member_reference(input, Some((type_enum, additional_type_info)))`. -/
def memberReferenceT [Price] [Platform] (classes : TP (Nat × Object)) (t : BinaryType)
    (info : Option AdditionalTypeInfo) : TP ValueOrRef := fun s i =>
  (binaryLibraryT s i).bind fun _ s i =>
    match t, info with
    | .primitive, some (.primitive p) =>
      readT (fun i => (memberPrimitiveUnTyped p i).map fun p => .value p.intoValue) s i
    | .string, none => readT stringMember s i
    | .object, none => memberReferenceNoneT classes s i
    | .systemClass, some (.systemClass name) => expectedClassT classes name none s i
    | .class, some (.class c) =>
      match s.libs.get? c.libraryId with
      | some library => expectedClassT classes c.typeName (some library) s i
      | none => free (.failure ⟨i, .missingLibraryId⟩, s)
    | .objectArray, none => memberReferenceNoneT classes s i
    | .stringArray, none => readAltT stringMember [refMember, parseNullObject] s i
    | .primitiveArray, some (.primitive _) => readT refMember s i
    | _, _ => free (.panic, s)

/-- `/repo/src/binary_parser/mod.rs:171-187` `parse_members_with_type_info`. -/
def membersWithTypeInfoT [Price] [Platform] (classes : TP (Nat × Object)) :
    List (BinaryType × Option AdditionalTypeInfo) → TP (List ValueOrRef)
  | [] => fun s i => free (.ok i [], s)
  | (t, info) :: ts => fun s i =>
    (memberReferenceT classes t info s i).bind fun m s i =>
      (membersWithTypeInfoT classes ts s i).map (m :: ·)

/-- `/repo/src/binary_parser/mod.rs:207-220`: one reference of `resolve_members`. -/
def resolveRefT (referenceable : TP Nat) (id : Nat) : TP Value := fun s i =>
  match s.objects.get? id with
  | some v => ((.ok i v, { s with objects := s.objects.erase id }), 1)
  | none =>
    match referenceable s i with
    | ((.ok r id2, s), n) =>
      if id2 = id then
        match s.objects.get? id2 with
        | some v => ((.ok r v, { s with objects := s.objects.erase id2 }), 1 + n)
        | none => ((.failure ⟨r, .unresolvableMemberReference⟩, s), 1 + n)
      else ((.error (Error.fromErrorKind i .verify), s), 1 + n)
    | ((.error e, s), n) => ((.error e, s), 1 + n)
    | ((.failure e, s), n) => ((.failure e, s), 1 + n)
    | ((.panic, s), n) => ((.panic, s), 1 + n)
    | ((.diverge, s), n) => ((.diverge, s), 1 + n)

/-- `/repo/src/binary_parser/mod.rs:190-225` `resolve_members`. -/
def resolveMembersT (referenceable : TP Nat) : List ValueOrRef → TP (List Value)
  | [] => fun s i => free (.ok i [], s)
  | .value v :: ms => fun s i => (resolveMembersT referenceable ms s i).map (v :: ·)
  | .null n :: ms => fun s i =>
    (resolveMembersT referenceable ms s i).map (List.replicate n .null ++ ·)
  | .ref id :: ms => fun s i =>
    (resolveRefT referenceable id s i).bind fun v s i =>
      (resolveMembersT referenceable ms s i).map (v :: ·)

/-- `/repo/src/binary_parser/mod.rs:231-251`: the class header. -/
def classHeaderT [Price] : TP (Nat × Class) := fun s i =>
  (classHeader s i,
    match ClassWithId.parse i with
    | .error _ => Price.miss i + altWork ClassWithMembers.parse
        [ClassWithMembersAndTypes.parse, SystemClassWithMembers.parse, SystemClassWithMembersAndTypes.parse] i
    | r => leafWork i r)

/-- `/repo/src/binary_parser/mod.rs:257-294`: the library of the class, and its members. -/
def classMembersT [Price] [Platform] (classes : TP (Nat × Object)) (errInput : Bytes) (c : Class) :
    TP (Option Str × List ValueOrRef) := fun s i =>
  match c with
  | .classWithMembers info lib =>
    match s.libs.get? lib with
    | some library =>
      (countT (memberReferenceNoneT classes) info.memberNames.length s i).map (some library, ·)
    | none => free (.failure ⟨errInput, .missingLibraryId⟩, s)
  | .classWithMembersAndTypes _ types lib =>
    match s.libs.get? lib with
    | some library =>
      (membersWithTypeInfoT classes (types.binaryTypeEnums.zip types.additionalInfos) s i).map
        (some library, ·)
    | none => free (.failure ⟨errInput, .missingLibraryId⟩, s)
  | .systemClassWithMembers info =>
    (countT (memberReferenceNoneT classes) info.memberNames.length s i).map (none, ·)
  | .systemClassWithMembersAndTypes _ types =>
    (membersWithTypeInfoT classes (types.binaryTypeEnums.zip types.additionalInfos) s i).map
      (none, ·)

/-- `/repo/src/binary_parser/mod.rs:231-309`: `parse_classes` after the library. -/
def afterLibraryT [Price] [Platform] (classes : TP (Nat × Object)) (referenceable : TP Nat) :
    TP (Nat × Object) := fun s errInput =>
  (classHeaderT s errInput).bind fun (objectId, cls) s i =>
    if (s.classes.get? objectId).isSome then free (.failure ⟨i, .duplicateObjectId⟩, s)
    else
      (classMembersT classes errInput cls s i).bind fun (library, members) s i =>
      (resolveMembersT referenceable members s i).bind fun values s i =>
        free (.ok i (objectId,
          { cls := cls.classInfo.name
            library := library
            members := AMap.fromIter (cls.classInfo.memberNames.zip values) }), s)

/-- `/repo/src/binary_parser/mod.rs:228-309` `parse_classes`. -/
def classesBodyT [Price] [Platform] (classes : TP (Nat × Object)) (referenceable : TP Nat) :
    TP (Nat × Object) := fun s i =>
  (binaryLibraryT s i).bind fun _ s i => afterLibraryT classes referenceable s i

/-- `/repo/src/binary_parser/mod.rs:315-332` and `:361-378`: the `while members.len() < len` loop. -/
def arrayLoopT (element : TP ValueOrRef) : (fuel : Nat) → (len : Nat) → (acc : List ValueOrRef) →
    TP (List ValueOrRef)
  | 0, len, acc => fun s i => free (if acc.length < len then (.diverge, s) else (.ok i acc, s))
  | fuel + 1, len, acc => fun s i =>
    if acc.length < len then
      (element s i).bind fun m s i =>
        match m with
        | .null n => arrayLoopT element fuel len (acc ++ List.replicate n (.value .null)) s i
        | m => arrayLoopT element fuel len (acc ++ [m]) s i
    else free (.ok i acc, s)

/-- `/repo/src/binary_parser/mod.rs:312-338` `parse_array_single_object`. -/
def arraySingleObjectT [Price] [Platform] (classes : TP (Nat × Object)) (referenceable : TP Nat) :
    TP (Nat × List Value) := fun s i =>
  (readT ArraySingleObject.parse s i).bind fun info s i =>
  (arrayLoopT (memberReferenceNoneT classes) info.length info.length [] s i).bind fun members s i =>
  (resolveMembersT referenceable members s i).map fun vs => (info.objectId, vs)

/-- `/repo/src/binary_parser/mod.rs:341-355` `parse_array_single_primitive`: as one record. -/
def arraySinglePrimitiveT [Price] [Platform] : TP (Nat × List Value) := fun s i =>
  (arraySinglePrimitive s i, leafWork i (arraySinglePrimitive s i).1)

/-- `/repo/src/binary_parser/mod.rs:358-384` `parse_array_single_string`. -/
def arraySingleStringT [Price] [Platform] (classes : TP (Nat × Object)) (referenceable : TP Nat) :
    TP (Nat × List Value) := fun s i =>
  (readT ArraySingleString.parse s i).bind fun info s i =>
  (arrayLoopT (memberReferenceT classes .stringArray none) info.length info.length [] s i).bind
    fun members s i =>
  (resolveMembersT referenceable members s i).map fun vs => (info.objectId, vs)

/-- `/repo/src/binary_parser/mod.rs:387-419` `parse_binary_array`. -/
def binaryArrayT [Price] [Platform] (classes : TP (Nat × Object)) (referenceable : TP Nat) :
    TP (Nat × List Value) := fun s errInput =>
  (readT BinaryArray.parse s errInput).bind fun a s i =>
    match checkedProduct 1 a.lengths with
    | none => free (.failure ⟨errInput, .invalidLength⟩, s)
    | some n =>
      (countT (memberReferenceT classes a.typeEnum a.additionalTypeInfo) n s i).bind fun members s i =>
      (resolveMembersT referenceable members s i).bind fun vs s i =>
        match reshape (a.lengths.drop 1).reverse vs with
        | .done vs => free (.ok i (a.objectId, vs), s)
        | .panic => free (.panic, s)
        | .diverge => free (.diverge, s)

/-- The four kinds of array. -/
def arrayAltT [Price] [Platform] (classes : TP (Nat × Object)) (referenceable : TP Nat) : TP (Nat × List Value) :=
  altMutT [arraySingleObjectT classes referenceable, arraySinglePrimitiveT,
      arraySingleStringT classes referenceable, binaryArrayT classes referenceable]

/-- `/repo/src/binary_parser/mod.rs:422-431` `parse_arrays`. -/
def arraysBodyT [Price] [Platform] (classes : TP (Nat × Object)) (referenceable : TP Nat) :
    TP (Nat × List Value) := fun s i =>
  (binaryLibraryT s i).bind fun _ s i => arrayAltT classes referenceable s i

/-- The string record of `parse_referenceable`. -/
def stringRecordT [Price] : TP (Nat × Value) :=
  readT fun i => (BinaryObjectString.parse i).map fun b => (b.objectId, Value.string b.value)

/-- `/repo/src/binary_parser/mod.rs:434-452` `parse_referenceable`. -/
def referenceableBodyT [Price] (parseClasses : TP (Nat × Object)) (parseArrays : TP (Nat × List Value)) :
    TP Nat := fun s i =>
  (altMutT
    [fun s i => (parseClasses s i).map fun o => (o.1, o.2.toValue),
     fun s i => (parseArrays s i).map fun a => (a.1, Value.array a.2),
     stringRecordT]
    s i).bind fun (id, v) s i =>
      free (.ok i id, { s with objects := s.objects.insert id v })

/-- The two mutually recursive functions of the parser. -/
structure RecT where
  classes : TP (Nat × Object)
  referenceable : TP Nat

/-- `parse_classes` and `parse_referenceable`, with at most `depth` nested calls (as in `recAt`). -/
def recAtT [Price] [Platform] : Nat → RecT
  | 0 => ⟨fun s _ => free (.diverge, s), fun s _ => free (.diverge, s)⟩
  | depth + 1 =>
    let r := recAtT depth
    let classes := classesBodyT r.classes r.referenceable
    ⟨classes, referenceableBodyT classes (arraysBodyT r.classes r.referenceable)⟩

/-- `/repo/src/binary_parser/mod.rs:228-309` `parse_classes`. -/
def parseClassesT [Price] [Platform] : TP (Nat × Object) := fun s i => (recAtT (i.length + 1)).classes s i

/-- `/repo/src/binary_parser/mod.rs:434-452` `parse_referenceable`. -/
def parseReferenceableT [Price] [Platform] : TP Nat := fun s i => (recAtT (i.length + 1)).referenceable s i

/-- `/repo/src/binary_parser/mod.rs:464-478` `parse_call_array`. -/
def parseCallArrayT [Price] [Platform] (rootId : Option Nat) : TP (List Value) := fun s i =>
  (binaryLibraryT s i).bind fun _ s i =>
  (arraySingleObjectT parseClassesT parseReferenceableT s i).bind fun (id, vs) s i =>
    free (if some id ≠ rootId then (.failure ⟨i, .invalidCallArrayId⟩, s) else (.ok i vs, s))

/-- `/repo/src/binary_parser/mod.rs:481-522` `parse_method_call`. -/
def parseMethodCallT [Price] [Platform] (rootId : Option Nat) : TP MethodCall := fun s i =>
  (binaryLibraryT s i).bind fun _ s i =>
  (readT BinaryMethodCall.parse s i).bind fun call s i =>
  (optT (parseCallArrayT rootId) s i).bind fun callArray s i =>
    match parseArgs call.messageEnum callArray call.args with
    | some args => free (.ok i ⟨call.methodName, call.typeName, call.callContext, args⟩, s)
    | none => free (.failure ⟨i, .invalidArgs⟩, s)

/-- `/repo/src/binary_parser/mod.rs:525-565` `parse_method_return`. -/
def parseMethodReturnT [Price] [Platform] (rootId : Option Nat) : TP MethodReturn := fun s i =>
  (binaryLibraryT s i).bind fun _ s i =>
  (readT BinaryMethodReturn.parse s i).bind fun ret s i =>
  (optT (parseCallArrayT rootId) s i).bind fun callArray s i =>
    match parseArgs ret.messageEnum callArray ret.args with
    | some args =>
      free (.ok i ⟨ret.returnValue.map ValueWithCode.intoValue, ret.callContext, args⟩, s)
    | none => free (.failure ⟨i, .invalidArgs⟩, s)

/-- `/repo/src/binary_parser/mod.rs:568-577` `parse_method_call_or_return`. -/
def parseMethodCallOrReturnT [Price] [Platform] (rootId : Option Nat) : TP (MethodCall ⊕ MethodReturn) :=
  altMutT
    [fun s i => (parseMethodCallT rootId s i).map .inl,
     fun s i => (parseMethodReturnT rootId s i).map .inr]

/-- `/repo/src/binary_parser/mod.rs:579-594` `parse_referenceables`. -/
def referenceablesLoopT [Price] [Platform] : (fuel : Nat) → TP Unit
  | 0 => fun s _ => free (.diverge, s)
  | fuel + 1 => fun s i =>
    match parseReferenceableT s i with
    | ((.ok r _, s), n) => ((referenceablesLoopT fuel s r).1, n + (referenceablesLoopT fuel s r).2)
    | ((.error _, s), n) => ((.ok i (), s), n)
    | ((.failure e, s), n) => ((.failure e, s), n)
    | ((.panic, s), n) => ((.panic, s), n)
    | ((.diverge, s), n) => ((.diverge, s), n)

/-- `/repo/src/binary_parser/mod.rs:579-594` `parse_referenceables`. -/
def parseReferenceablesT [Price] [Platform] : TP Unit := fun s i => referenceablesLoopT (i.length + 1) s i

/-- `/repo/src/binary_parser/mod.rs:597-630` `parse_remoting_message`. -/
def parseRemotingMessageT [Price] [Platform] : TP RemotingMessage := fun s i =>
  (readT SerializationHeader.parse s i).bind fun header s i =>
  (parseReferenceablesT s i).bind fun _ s i =>
  (optT (parseMethodCallOrReturnT header.rootId) s i).bind fun m s i =>
  (parseReferenceablesT s i).bind fun _ s i =>
  (readT MessageEnd.parse s i).bind fun _ s i =>
    if i.isEmpty then (selectRoot header.rootId m s i, 1)
    else free (.error ⟨i, .trailingData⟩, s)

/-- The work of `BinaryParser::deserialize` on an input, with the price `κ` of an attempt that ends in a recoverable
error. -/
def work [Platform] (κ : Bytes → Nat) (input : Bytes) : Nat := (@parseRemotingMessageT ⟨κ⟩ _ St.init input).2

end Nrbf
