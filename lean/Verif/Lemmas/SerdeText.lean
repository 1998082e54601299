import Verif.Model.SerdeText
import Verif.Props.SerdeExact

/-! # Without the texts, the serde layer with texts is the one without -/

set_option autoImplicit false

namespace Nrbf

variable [Platform] [FloatLib]

/-- The error without its text. -/
def SerdeError.erase : SerdeError → DeError
  | .parsing e => .parsing e
  | .invalidType .methodCall _ => .methodCall
  | .invalidType .methodReturn _ => .methodReturn
  | .hang => .hang
  | _ => .serde

/-- The same outcome, up to the texts of errors. -/
def Echo {α β : Type} (R : α → β → Prop) : TextResult α → DeResult β → Prop
  | .ok a, .ok b => R a b
  | .error e, .error e' => e.erase = e'
  | _, _ => False

omit [Platform] [FloatLib] in
theorem Echo.map {α β α' β' : Type} {R : α → β → Prop} {R' : α' → β' → Prop} {x : TextResult α} {y : DeResult β}
    {f : α → α'} {g : β → β'} (h : Echo R x y) (hf : ∀ a b, R a b → R' (f a) (g b)) : Echo R' (x.map f) (y.map g) := by
  cases x <;> cases y <;> first | exact h.elim | exact h | exact hf _ _ h

/-- The same outcome at every type. -/
def CSim (c : RChild) (c' : Child) : Prop := ∀ T, Echo Eq (c T) (c' T.erase)

/-- The same elements. -/
inductive CSims : List RChild → List Child → Prop
  | nil : CSims [] []
  | cons {c c' cs cs'} : CSim c c' → CSims cs cs' → CSims (c :: cs) (c' :: cs')

/-- The same entries. -/
inductive ESims : List (Str × RChild) → List (Str × Child) → Prop
  | nil : ESims [] []
  | cons {k c c' cs cs'} : CSim c c' → ESims cs cs' → ESims ((k, c) :: cs) ((k, c') :: cs')

omit [FloatLib] in
theorem CSims.length {cs : List RChild} {cs' : List Child} (h : CSims cs cs') : cs.length = cs'.length := by
  induction h with
  | nil => rfl
  | cons _ _ ih => simp [ih]

omit [FloatLib] in
theorem ESims.length {cs : List (Str × RChild)} {cs' : List (Str × Child)} (h : ESims cs cs') : cs.length = cs'.length := by
  induction h with
  | nil => rfl
  | cons _ _ ih => simp [ih]

/-- Sequences in related states give related elements. -/
def NSim {σ σ' : Type} (R : σ → σ' → Prop) (next : NextR σ) (next' : Next σ') : Prop :=
  ∀ a b T, R a b → Echo (fun x y => x.1 = y.1 ∧ R x.2 y.2) (next a T) (next' b T.erase)

/-- Array accesses. -/
def ASim (a : ArrayAccess) (b : List Child) : Prop := CSims a.rest b

/-- List accesses. -/
def LSim (a : ListAccessR) (b : ListAccess) : Prop := CSims a.array.rest b.rest ∧ a.count = b.count ∧ a.size = b.size

omit [FloatLib] in
theorem array_nsim : NSim ASim arrayNextR arrayNext := by
  rintro ⟨rest, n⟩ b T h
  cases (h : CSims rest b) with
  | nil => exact ⟨rfl, .nil⟩
  | @cons c c' cs cs' hc hcs =>
    have := hc T
    simp only [arrayNextR, arrayNext]
    cases h1 : c T <;> cases h2 : c' T.erase <;> rw [h1, h2] at this <;> first | exact this.elim | exact this | skip
    exact ⟨congrArg some this, hcs⟩

omit [FloatLib] in
theorem list_nsim : NSim LSim listNextR listNext := by
  rintro ⟨arr, n, sz⟩ ⟨rest, n', sz'⟩ T ⟨h, h2, h3⟩
  subst h2 h3
  unfold listNextR listNext
  simp only
  by_cases hlt : n < sz
  · rw [if_pos hlt, if_pos hlt]
    have := array_nsim arr rest T h
    cases h1 : arrayNextR arr T <;> cases h2 : arrayNext rest T.erase <;> rw [h1, h2] at this <;>
      first | exact this.elim | exact this | skip
    exact ⟨this.1, this.2, rfl, rfl⟩
  · rw [if_neg hlt, if_neg hlt]
    exact ⟨rfl, h, rfl, rfl⟩

omit [FloatLib] in
theorem readAll_sim {σ σ' : Type} {R : σ → σ' → Prop} {next : NextR σ} {next' : Next σ'} (h : NSim R next next')
    (T : RTy) (fuel : Nat) {a : σ} {b : σ'} (hab : R a b) :
    Echo (fun x y => x.1 = y.1 ∧ R x.2 y.2) (readAllR next T fuel a) (readAll next' T.erase fuel b) := by
  induction fuel generalizing a b with
  | zero => exact rfl
  | succ fuel ih =>
    have h1 := h a b T hab
    simp only [readAllR, readAll]
    cases e1 : next a T <;> cases e2 : next' b T.erase <;> rw [e1, e2] at h1 <;> first | exact h1.elim | exact h1 | skip
    rename_i x y
    obtain ⟨d, a'⟩ := x
    obtain ⟨d', b'⟩ := y
    obtain ⟨hd, hr⟩ := h1
    cases hd
    cases d with
    | none => exact ⟨rfl, hr⟩
    | some d =>
      have h2 := ih hr
      simp only
      cases e3 : readAllR next T fuel a' <;> cases e4 : readAll next' T.erase fuel b' <;> rw [e3, e4] at h2 <;>
        first | exact h2.elim | exact h2 | skip
      exact ⟨congrArg (d :: ·) h2.1, h2.2⟩

omit [FloatLib] in
theorem readEach_sim {σ σ' : Type} {R : σ → σ' → Prop} {next : NextR σ} {next' : Next σ'} (h : NSim R next next')
    (exp : Str) (index : Nat) (Ts : List RTy) {a : σ} {b : σ'} (hab : R a b) :
    Echo (fun x y => x.1 = y.1 ∧ R x.2 y.2) (readEachR next exp index Ts a) (readEach next' (RTy.eraseAll Ts) b) := by
  induction Ts generalizing index a b with
  | nil => exact ⟨rfl, hab⟩
  | cons T Ts ih =>
    have h1 := h a b T hab
    rw [RTy.eraseAll]
    simp only [readEachR, readEach]
    cases e1 : next a T <;> cases e2 : next' b T.erase <;> rw [e1, e2] at h1 <;> first | exact h1.elim | exact h1 | skip
    rename_i x y
    obtain ⟨d, a'⟩ := x
    obtain ⟨d', b'⟩ := y
    obtain ⟨hd, hr⟩ := h1
    cases hd
    cases d with
    | none => exact rfl
    | some d =>
      have h2 := ih (index + 1) hr
      simp only
      cases e3 : readEachR next exp (index + 1) Ts a' <;> cases e4 : readEach next' (RTy.eraseAll Ts) b' <;> rw [e3, e4] at h2 <;>
        first | exact h2.elim | exact h2 | skip
      exact ⟨congrArg (d :: ·) h2.1, h2.2⟩

/-- The plan without names. -/
def SeqPlanR.erase : SeqPlanR → SeqPlan
  | .all T => .all T.erase
  | .each _ Ts => .each (RTy.eraseAll Ts)

omit [FloatLib] in
theorem run_sim {σ σ' : Type} {R : σ → σ' → Prop} {next : NextR σ} {next' : Next σ'} (h : NSim R next next')
    (plan : SeqPlanR) (fuel : Nat) {a : σ} {b : σ'} (hab : R a b) :
    Echo (fun x y => x.1 = y.1 ∧ R x.2 y.2) (plan.run next fuel a) (plan.erase.run next' fuel b) := by
  cases plan with
  | all T => exact readAll_sim h T fuel hab
  | each exp Ts => exact readEach_sim h exp 0 Ts hab

omit [FloatLib] in
theorem visitArray_sim (plan : SeqPlanR) {cs : List RChild} {cs' : List Child} (h : CSims cs cs') :
    Echo Eq (visitArraySeqR plan cs) (visitArraySeq plan.erase cs') := by
  have h1 := run_sim array_nsim plan (cs.length + 1) (a := ⟨cs, 0⟩) (b := cs') h
  unfold visitArraySeqR visitArraySeq
  rw [← h.length]
  cases e1 : plan.run arrayNextR (cs.length + 1) ⟨cs, 0⟩ <;> cases e2 : plan.erase.run arrayNext (cs.length + 1) cs' <;>
    rw [e1, e2] at h1 <;> first | exact h1.elim | exact h1 | skip
  rename_i x y
  obtain ⟨d, a⟩ := x
  obtain ⟨d', b⟩ := y
  obtain ⟨hd, hr⟩ := h1
  simp only [arrayEndR, arrayEnd]
  rw [← CSims.length hr]
  by_cases hz : a.rest.length = 0
  · rw [if_pos hz, if_pos hz]; exact hd
  · rw [if_neg hz, if_neg hz]; exact rfl

omit [FloatLib] in
theorem visitList_sim (plan : SeqPlanR) {cs : List RChild} {cs' : List Child} (h : CSims cs cs') (n : Nat) :
    Echo Eq (visitListSeqR plan cs n) (visitListSeq plan.erase cs' n) := by
  have h1 := run_sim list_nsim plan (cs.length + 1) (a := ⟨⟨cs, 0⟩, 0, n⟩) (b := ⟨cs', 0, n⟩) ⟨h, rfl, rfl⟩
  unfold visitListSeqR visitListSeq
  rw [← h.length]
  cases e1 : plan.run listNextR (cs.length + 1) ⟨⟨cs, 0⟩, 0, n⟩ <;>
    cases e2 : plan.erase.run listNext (cs.length + 1) ⟨cs', 0, n⟩ <;>
    rw [e1, e2] at h1 <;> first | exact h1.elim | exact h1 | skip
  rename_i x y
  obtain ⟨d, a⟩ := x
  obtain ⟨d', b⟩ := y
  obtain ⟨hd, hr⟩ := h1
  simp only [listEndR, listEnd]
  rw [← hr.2.1, ← hr.2.2]
  by_cases hz : a.count = a.size
  · rw [if_pos hz, if_pos hz]; exact hd
  · rw [if_neg hz, if_neg hz]; exact rfl

omit [FloatLib] in
theorem readMap_sim (T : RTy) {es : List (Str × RChild)} {es' : List (Str × Child)} (h : ESims es es') :
    Echo Eq (readMapR T es) (readMap T.erase es') := by
  induction h with
  | nil => exact rfl
  | @cons k c c' cs cs' hc _ ih =>
    have h1 := hc T
    simp only [readMapR, readMap]
    cases e1 : c T <;> cases e2 : c' T.erase <;> rw [e1, e2] at h1 <;> first | exact h1.elim | exact h1 | skip
    simp only
    cases e3 : readMapR T cs <;> cases e4 : readMap T.erase cs' <;> rw [e3, e4] at ih <;> first | exact ih.elim | exact ih | skip
    cases h1
    cases ih
    rfl

omit [FloatLib] in
theorem fieldType_sim (fs : List (Str × RTy)) (k : Str) :
    fieldType (RTy.eraseFields fs) k = (fieldTypeR fs k).map RTy.erase := by
  induction fs with
  | nil => rw [RTy.eraseFields]; rfl
  | cons f fs ih =>
    obtain ⟨k', T⟩ := f
    rw [RTy.eraseFields]
    unfold fieldType fieldTypeR at ih ⊢
    simp only [List.find?_cons]
    by_cases hk : k' = k
    · simp [hk]
    · simp only [hk, decide_false, Bool.false_eq_true, if_false]; exact ih

omit [FloatLib] in
theorem readFields_sim (fs : List (Str × RTy)) {es : List (Str × RChild)} {es' : List (Str × Child)} (h : ESims es es')
    (acc : List (Str × Dyn)) : Echo Eq (readFieldsR fs es acc) (readFields (RTy.eraseFields fs) es' acc) := by
  induction h generalizing acc with
  | nil => exact rfl
  | @cons k c c' cs cs' hc _ ih =>
    simp only [readFieldsR, readFields, fieldType_sim]
    cases fieldTypeR fs k with
    | none =>
      have h1 := hc .ignored
      rw [show RTy.ignored.erase = Ty.ignored by rw [RTy.erase]] at h1
      simp only [Option.map_none]
      cases e1 : c .ignored <;> cases e2 : c' .ignored <;> rw [e1, e2] at h1 <;> first | exact h1.elim | exact h1 | skip
      exact ih acc
    | some T =>
      have h1 := hc T
      simp only [Option.map_some]
      by_cases hd : acc.any (fun e => e.1 = k) = true
      · rw [if_pos hd, if_pos hd]; exact rfl
      · rw [if_neg hd, if_neg hd]
        cases e1 : c T <;> cases e2 : c' T.erase <;> rw [e1, e2] at h1 <;> first | exact h1.elim | exact h1 | skip
        cases h1
        exact ih _

omit [FloatLib] in
theorem erase_option {T : RTy} {T' : Ty} (h : T.erase = .option T') : ∃ T0, T = .option T0 ∧ T' = T0.erase := by
  cases T <;> rw [RTy.erase] at h <;> cases h
  exact ⟨_, rfl, rfl⟩

omit [FloatLib] in
theorem erase_struct {T : RTy} {fs : List (Str × Ty)} (h : T.erase = .struct fs) :
    ∃ name fs0, T = .struct name fs0 ∧ fs = RTy.eraseFields fs0 := by
  cases T <;> rw [RTy.erase] at h <;> cases h
  exact ⟨_, _, rfl, rfl⟩

omit [FloatLib] in
theorem finishFields_sim (found : List (Str × Dyn)) (fs : List (Str × RTy)) :
    Echo Eq (finishFieldsR found fs) (finishFields found (RTy.eraseFields fs)) := by
  induction fs with
  | nil => rw [RTy.eraseFields]; exact rfl
  | cons f fs ih =>
    obtain ⟨k, T⟩ := f
    rw [RTy.eraseFields]
    simp only [finishFieldsR, finishFields]
    cases found.find? (fun e => e.1 = k) with
    | some p =>
      obtain ⟨k', d⟩ := p
      simp only
      cases e3 : finishFieldsR found fs <;> cases e4 : finishFields found (RTy.eraseFields fs) <;> rw [e3, e4] at ih <;>
        first | exact ih.elim | exact ih | skip
      cases ih
      rfl
    | none =>
      simp only
      cases T
      case option T =>
        rw [RTy.erase]
        simp only
        cases e3 : finishFieldsR found fs <;> cases e4 : finishFields found (RTy.eraseFields fs) <;> rw [e3, e4] at ih <;>
          first | exact ih.elim | exact ih | skip
        cases ih
        rfl
      all_goals (rw [RTy.erase]; exact rfl)

omit [FloatLib] in
theorem visitFields_sim (fs : List (Str × RTy)) {es : List (Str × RChild)} {es' : List (Str × Child)} (h : ESims es es') :
    Echo Eq (visitFieldsR fs es) (visitFields (RTy.eraseFields fs) es') := by
  have h1 := readFields_sim fs h []
  unfold visitFieldsR visitFields
  cases e1 : readFieldsR fs es [] <;> cases e2 : readFields (RTy.eraseFields fs) es' [] <;> rw [e1, e2] at h1 <;>
    first | exact h1.elim | exact h1 | skip
  cases h1
  exact finishFields_sim _ fs

/-- The same call. -/
inductive VSim : VCall RChild SerdeError → VCall Child → Prop
  | visitBool (b) : VSim (.visitBool b) (.visitBool b)
  | visitInt (n) : VSim (.visitInt n) (.visitInt n)
  | visitF32 (b) : VSim (.visitF32 b) (.visitF32 b)
  | visitF64 (b) : VSim (.visitF64 b) (.visitF64 b)
  | visitChar (c) : VSim (.visitChar c) (.visitChar c)
  | visitString (s) : VSim (.visitString s) (.visitString s)
  | visitBorrowedStr (s) : VSim (.visitBorrowedStr s) (.visitBorrowedStr s)
  | visitUnit : VSim .visitUnit .visitUnit
  | visitNone : VSim .visitNone .visitNone
  | visitSome : VSim .visitSome .visitSome
  | visitArray {cs cs'} : CSims cs cs' → VSim (.visitArray cs) (.visitArray cs')
  | visitList {cs cs'} (n) : CSims cs cs' → VSim (.visitList cs n) (.visitList cs' n)
  | visitMap {es es'} : ESims es es' → VSim (.visitMap es) (.visitMap es')
  | fail (e : SerdeError) : VSim (.fail e) (.fail e.erase)

omit [FloatLib] in
theorem eraseAll_eq (Ts : List RTy) : RTy.eraseAll Ts = Ts.map RTy.erase := by
  induction Ts with
  | nil => rw [RTy.eraseAll]; rfl
  | cons T Ts ih => rw [RTy.eraseAll, ih]; rfl

omit [FloatLib] in
theorem eraseFields_eq (fs : List (Str × RTy)) : RTy.eraseFields fs = fs.map fun f => (f.1, f.2.erase) := by
  induction fs with
  | nil => rw [RTy.eraseFields]; rfl
  | cons f fs ih => obtain ⟨k, T⟩ := f; rw [RTy.eraseFields, ih]; rfl

omit [FloatLib] in
theorem eraseFields_keys (fs : List (Str × RTy)) : (RTy.eraseFields fs).map Prod.fst = fs.map Prod.fst := by
  rw [eraseFields_eq, List.map_map]; rfl

omit [FloatLib] in
theorem eraseFields_types (fs : List (Str × RTy)) : (RTy.eraseFields fs).map Prod.snd = RTy.eraseAll (fs.map Prod.snd) := by
  rw [eraseFields_eq, eraseAll_eq, List.map_map, List.map_map]; rfl

omit [Platform] [FloatLib] in
theorem char_sim (s : Str) : Echo Eq (charOfStrR s) (charOfStr s) := by
  unfold charOfStrR charOfStr
  cases singleChar s <;> exact rfl

theorem accept_sim (T : RTy) {c : VCall RChild SerdeError} {c' : VCall Child} (h : VSim c c') :
    Echo Eq (acceptR T c) (accept T.erase c') := by
  cases h
  case fail e => rw [acceptR, accept]; exact rfl
  case visitArray cs cs' h =>
    cases T
    case vec T =>
      rw [RTy.erase, acceptR, accept]
      exact (visitArray_sim (.all T) h).map fun _ _ h => congrArg _ h
    case array n T =>
      rw [RTy.erase, acceptR, accept, show List.replicate n T.erase = RTy.eraseAll (List.replicate n T) by
        rw [eraseAll_eq, List.map_replicate]]
      exact (visitArray_sim (.each _ _) h).map fun _ _ h => congrArg _ h
    case tuple Ts =>
      rw [RTy.erase, acceptR, accept]
      exact (visitArray_sim (.each _ _) h).map fun _ _ h => congrArg _ h
    case struct name fs =>
      rw [RTy.erase, acceptR, accept, eraseFields_keys, eraseFields_types]
      exact (visitArray_sim (.each _ _) h).map fun _ _ h => by rw [h]
    case newtype name T =>
      rw [RTy.erase, acceptR, accept, show [T.erase] = RTy.eraseAll [T] by rw [eraseAll_eq]; rfl]
      exact (visitArray_sim (.each _ _) h).map fun _ _ h => congrArg _ h
    case ignored =>
      rw [show RTy.ignored.erase = Ty.ignored by rw [RTy.erase], acceptR, accept]
      rw [show Ty.ignored = RTy.ignored.erase by rw [RTy.erase]]
      exact (visitArray_sim (.all _) h).map fun _ _ h => rfl
    case any =>
      rw [show RTy.any.erase = Ty.any by rw [RTy.erase], acceptR, accept]
      rw [show Ty.any = RTy.any.erase by rw [RTy.erase]]
      exact (visitArray_sim (.all _) h).map fun _ _ h => congrArg _ h
    all_goals (rw [RTy.erase]; exact rfl)
  case visitList cs cs' n h =>
    cases T
    case vec T =>
      rw [RTy.erase, acceptR, accept]
      exact (visitList_sim (.all T) h n).map fun _ _ h => congrArg _ h
    case array m T =>
      rw [RTy.erase, acceptR, accept, show List.replicate m T.erase = RTy.eraseAll (List.replicate m T) by
        rw [eraseAll_eq, List.map_replicate]]
      exact (visitList_sim (.each _ _) h n).map fun _ _ h => congrArg _ h
    case tuple Ts =>
      rw [RTy.erase, acceptR, accept]
      exact (visitList_sim (.each _ _) h n).map fun _ _ h => congrArg _ h
    case struct name fs =>
      rw [RTy.erase, acceptR, accept, eraseFields_keys, eraseFields_types]
      exact (visitList_sim (.each _ _) h n).map fun _ _ h => by rw [h]
    case newtype name T =>
      rw [RTy.erase, acceptR, accept, show [T.erase] = RTy.eraseAll [T] by rw [eraseAll_eq]; rfl]
      exact (visitList_sim (.each _ _) h n).map fun _ _ h => congrArg _ h
    case ignored =>
      rw [show RTy.ignored.erase = Ty.ignored by rw [RTy.erase], acceptR, accept]
      rw [show Ty.ignored = RTy.ignored.erase by rw [RTy.erase]]
      exact (visitList_sim (.all _) h n).map fun _ _ h => rfl
    case any =>
      rw [show RTy.any.erase = Ty.any by rw [RTy.erase], acceptR, accept]
      rw [show Ty.any = RTy.any.erase by rw [RTy.erase]]
      exact (visitList_sim (.all _) h n).map fun _ _ h => congrArg _ h
    all_goals (rw [RTy.erase]; exact rfl)
  case visitMap es es' h =>
    cases T
    case map T =>
      rw [RTy.erase, acceptR, accept]
      exact (readMap_sim T h).map fun _ _ h => congrArg _ h
    case struct name fs =>
      rw [RTy.erase, acceptR, accept]
      exact (visitFields_sim fs h).map fun _ _ h => congrArg _ h
    case ignored =>
      rw [show RTy.ignored.erase = Ty.ignored by rw [RTy.erase], acceptR, accept]
      rw [show Ty.ignored = RTy.ignored.erase by rw [RTy.erase]]
      exact (readMap_sim _ h).map fun _ _ h => rfl
    case any =>
      rw [show RTy.any.erase = Ty.any by rw [RTy.erase], acceptR, accept]
      rw [show Ty.any = RTy.any.erase by rw [RTy.erase]]
      exact (readMap_sim _ h).map fun _ _ h => congrArg _ h
    all_goals (rw [RTy.erase]; exact rfl)
  case visitInt n =>
    cases T
    case int t =>
      rw [RTy.erase, acceptR, accept]
      split <;> exact rfl
    all_goals (rw [RTy.erase]; exact rfl)
  case visitString s =>
    cases T
    case char => rw [RTy.erase, acceptR, accept]; exact char_sim s
    all_goals (rw [RTy.erase]; exact rfl)
  case visitBorrowedStr s =>
    cases T
    case char => rw [RTy.erase, acceptR, accept]; exact char_sim s
    all_goals (rw [RTy.erase]; exact rfl)
  all_goals (cases T <;> rw [RTy.erase] <;> exact rfl)

omit [Platform] [FloatLib] in
theorem ite_ind2' {α β : Type} {c : Prop} [Decidable c] {a b : α} {a' b' : β} (P : α → β → Prop) (ha : P a a')
    (hb : P b b') : P (if c then a else b) (if c then a' else b') := by
  split <;> assumption

/-- The same deserializer. -/
structure DSim (d : Deser RChild SerdeError) (d' : Deser Child) : Prop where
  any : VSim d.any d'.any
  option : VSim d.option d'.option
  struct : VSim d.struct d'.struct

theorem run_sim' {d : Deser RChild SerdeError} {d' : Deser Child} (h : DSim d d') :
    ∀ T : RTy, Echo Eq (d.runR T) (d'.run T.erase)
  | .option T => by
    have ih := run_sim' h T
    obtain ⟨_, h, _⟩ := h
    rw [RTy.erase, Deser.runR, Deser.run]
    cases ho : d.option <;> cases ho' : d'.option <;> rw [ho, ho'] at h <;> first | (cases h; done) | skip
    case visitSome.visitSome => exact ih.map fun _ _ h => congrArg _ h
    case fail.fail => cases h; exact rfl
    all_goals exact rfl
  | .struct name fs => by
    have := accept_sim (.struct name fs) h.struct
    rw [Deser.runR]
    rw [RTy.erase] at this ⊢
    rw [Deser.run]
    exact this
  | .bool => by have := accept_sim .bool h.any; rw [RTy.erase] at this ⊢; exact this
  | .int t => by have := accept_sim (.int t) h.any; rw [RTy.erase] at this ⊢; exact this
  | .f32 => by have := accept_sim .f32 h.any; rw [RTy.erase] at this ⊢; exact this
  | .f64 => by have := accept_sim .f64 h.any; rw [RTy.erase] at this ⊢; exact this
  | .char => by have := accept_sim .char h.any; rw [RTy.erase] at this ⊢; exact this
  | .str => by have := accept_sim .str h.any; rw [RTy.erase] at this ⊢; exact this
  | .string => by have := accept_sim .string h.any; rw [RTy.erase] at this ⊢; exact this
  | .unit => by have := accept_sim .unit h.any; rw [RTy.erase] at this ⊢; exact this
  | .vec T => by have := accept_sim (.vec T) h.any; rw [RTy.erase] at this ⊢; exact this
  | .array n T => by have := accept_sim (.array n T) h.any; rw [RTy.erase] at this ⊢; exact this
  | .tuple Ts => by have := accept_sim (.tuple Ts) h.any; rw [RTy.erase] at this ⊢; exact this
  | .map T => by have := accept_sim (.map T) h.any; rw [RTy.erase] at this ⊢; exact this
  | .newtype n T => by have := accept_sim (.newtype n T) h.any; rw [RTy.erase] at this ⊢; exact this
  | .enum n => by have := accept_sim (.enum n) h.any; rw [RTy.erase] at this ⊢; exact this
  | .ignored => by have := accept_sim .ignored h.any; rw [RTy.erase] at this ⊢; exact this
  | .any => by have := accept_sim .any h.any; rw [RTy.erase] at this ⊢; exact this

/-! ## The deserializers of the crate -/

/-- The same member. -/
structure NodeSim (n : NodeR) (n' : Node) : Prop where
  value : n.value = n'.value
  deser : CSim n.deser n'.deser
  items : CSims n.items n'.items

/-- The same members. -/
inductive MSims : List (Str × NodeR) → List (Str × Node) → Prop
  | nil : MSims [] []
  | cons {k n n' ns ns'} : NodeSim n n' → MSims ns ns' → MSims ((k, n) :: ns) ((k, n') :: ns')

omit [FloatLib] in
theorem MSims.entries {ns : List (Str × NodeR)} {ns' : List (Str × Node)} (h : MSims ns ns') :
    ESims (ns.map fun m => (m.1, m.2.deser)) (ns'.map fun m => (m.1, m.2.deser)) := by
  induction h with
  | nil => exact .nil
  | cons h _ ih => exact .cons h.deser ih

omit [FloatLib] in
theorem MSims.length {ns : List (Str × NodeR)} {ns' : List (Str × Node)} (h : MSims ns ns') : ns.length = ns'.length := by
  induction h with
  | nil => rfl
  | cons _ _ ih => simp [ih]

omit [FloatLib] in
theorem MSims.get {ns : List (Str × NodeR)} {ns' : List (Str × Node)} (h : MSims ns ns') (k : Str) :
    (AMap.get? ns k = none ∧ AMap.get? ns' k = none) ∨
      ∃ n n', AMap.get? ns k = some n ∧ AMap.get? ns' k = some n' ∧ NodeSim n n' := by
  induction h with
  | nil => exact .inl ⟨rfl, rfl⟩
  | @cons k' n n' ns ns' hn _ ih =>
    simp only [AMap.get?]
    by_cases hk : k' = k
    · subst hk; simp; exact hn
    · simpa [hk] using ih

omit [FloatLib] in
theorem listMembers_sim {ns : List (Str × NodeR)} {ns' : List (Str × Node)} (h : MSims ns ns') :
    (listMembersR ns = none ∧ listMembers ns' = none) ∨
      ∃ cs cs' n, listMembersR ns = some (cs, n) ∧ listMembers ns' = some (cs', n) ∧ CSims cs cs' := by
  unfold listMembersR listMembers
  rw [← h.length]
  by_cases h3 : ns.length = 3
  · rw [if_pos h3, if_pos h3]
    rcases h.get (lit "_items") with ⟨a, a'⟩ | ⟨⟨v1, d1, i1⟩, ⟨v1', d1', i1'⟩, a, a', s1⟩ <;> rw [a, a']
    · exact .inl ⟨rfl, rfl⟩
    rcases h.get (lit "_size") with ⟨b, b'⟩ | ⟨⟨v2, d2, i2⟩, ⟨v2', d2', i2'⟩, b, b', s2⟩ <;> rw [b, b']
    · left; cases v1 <;> cases v1' <;> exact ⟨rfl, rfl⟩
    rcases h.get (lit "_version") with ⟨c, c'⟩ | ⟨⟨v3, d3, i3⟩, ⟨v3', d3', i3'⟩, c, c', s3⟩ <;> rw [c, c']
    · left
      obtain rfl : v1 = v1' := s1.value
      obtain rfl : v2 = v2' := s2.value
      cases v1 <;> first | exact ⟨rfl, rfl⟩ | (cases v2 <;> exact ⟨rfl, rfl⟩)
    obtain rfl : v1 = v1' := s1.value
    obtain rfl : v2 = v2' := s2.value
    obtain rfl : v3 = v3' := s3.value
    cases v1 <;> first | exact .inl ⟨rfl, rfl⟩ | skip
    cases v2 <;> first | exact .inl ⟨rfl, rfl⟩ | skip
    cases v3 <;> first | exact .inl ⟨rfl, rfl⟩ | skip
    exact .inr ⟨_, _, _, rfl, rfl, s1.items⟩
  · rw [if_neg h3, if_neg h3]; exact .inl ⟨rfl, rfl⟩

omit [FloatLib] in
theorem unbox_sim (exp : Str) (T : RTy) {es : List (Str × RChild)} {es' : List (Str × Child)} (h : ESims es es') :
    Echo Eq (unboxR exp T es) (unbox T.erase es') := by
  unfold unboxR unbox
  rw [← h.length]
  by_cases h1 : es.length = 1
  · rw [if_pos h1, if_pos h1]
    cases h with
    | nil => cases h1
    | @cons k c c' cs cs' hc hcs =>
      cases hcs with
      | cons => simp at h1
      | nil =>
        have h2 := hc T
        simp only
        cases e1 : c T <;> cases e2 : c' T.erase <;> rw [e1, e2] at h2 <;> first | exact h2.elim | exact h2 | skip
        cases h2
        simp only
        split <;> exact rfl
  · rw [if_neg h1, if_neg h1]; exact rfl

omit [FloatLib] in
theorem unboxed_sim {exp : Str} {T : RTy} {T' : Ty} {visit : Dyn → VCall RChild SerdeError} {visit' : Dyn → VCall Child}
    (hT : T.erase = T') (hv : ∀ d, VSim (visit d) (visit' d)) {es : List (Str × RChild)} {es' : List (Str × Child)} (h : ESims es es') :
    VSim (unboxedR exp T visit es) (unboxed T' visit' es') := by
  subst hT
  have h1 := unbox_sim exp T h
  unfold unboxedR unboxed
  cases e1 : unboxR exp T es <;> cases e2 : unbox T.erase es' <;> rw [e1, e2] at h1 <;> first | exact h1.elim | skip
  · cases (h1 : _ = _); exact .fail _
  · cases (h1 : _ = _); exact hv _

omit [FloatLib] in
theorem objectAny_sim (cls : Str) (lib : Option Str) {ns : List (Str × NodeR)} {ns' : List (Str × Node)} (h : MSims ns ns') :
    VSim (objectAnyR cls lib ns) (objectAny cls lib ns') := by
  have hi : ∀ d, VSim (visitIntR d) (visitInt d) := fun d => by cases d <;> first | exact .visitInt _ | exact .fail (.invalidType .unit [])
  have hb : ∀ d, VSim (visitBoolR d) (visitBool d) := fun d => by cases d <;> first | exact .visitBool _ | exact .fail (.invalidType .unit [])
  have hc : ∀ d, VSim (visitCharR d) (visitChar d) := fun d => by cases d <;> first | exact .visitChar _ | exact .fail (.invalidType .unit [])
  have hf : ∀ d, VSim (visitF32R d) (visitF32 d) := fun d => by cases d <;> first | exact .visitF32 _ | exact .fail (.invalidType .unit [])
  have hg : ∀ d, VSim (visitF64R d) (visitF64 d) := fun d => by cases d <;> first | exact .visitF64 _ | exact .fail (.invalidType .unit [])
  unfold objectAnyR objectAny
  simp only
  refine ite_ind2' VSim (.visitMap h.entries) ?_
  refine ite_ind2' VSim (unboxed_sim (by rw [RTy.erase]) hb h.entries) ?_
  refine ite_ind2' VSim (unboxed_sim (by rw [RTy.erase]; rfl) hi h.entries) ?_
  refine ite_ind2' VSim (unboxed_sim (by rw [RTy.erase]; rfl) hi h.entries) ?_
  refine ite_ind2' VSim (unboxed_sim (by rw [RTy.erase]) hc h.entries) ?_
  refine ite_ind2' VSim (unboxed_sim (by rw [RTy.erase]) hg h.entries) ?_
  refine ite_ind2' VSim (unboxed_sim (by rw [RTy.erase]) hf h.entries) ?_
  refine ite_ind2' VSim (unboxed_sim (by rw [RTy.erase]; rfl) hi h.entries) ?_
  refine ite_ind2' VSim (unboxed_sim (by rw [RTy.erase]; rfl) hi h.entries) ?_
  refine ite_ind2' VSim (unboxed_sim (by rw [RTy.erase]; rfl) hi h.entries) ?_
  refine ite_ind2' VSim (unboxed_sim (by rw [RTy.erase]; rfl) hi h.entries) ?_
  refine ite_ind2' VSim (unboxed_sim (by rw [RTy.erase]; rfl) hi h.entries) ?_
  refine ite_ind2' VSim (unboxed_sim (by rw [RTy.erase]; rfl) hi h.entries) ?_
  refine ite_ind2' VSim ?_ (.visitMap h.entries)
  rcases listMembers_sim h with ⟨a, b⟩ | ⟨cs, cs', n, a, b, hcs⟩ <;> rw [a, b]
  · exact .fail (.systemClass _)
  · exact .visitList _ hcs

mutual
theorem valueDeser_sim : ∀ v : Value, DSim (valueDeserR v) (valueDeser v)
  | .object cls lib ms => by
    have h := memberNodes_sim ms
    rw [valueDeserR, valueDeser]
    exact ⟨objectAny_sim cls lib h, .visitSome, .visitMap h.entries⟩
  | .array vs => by
    have h := itemDesers_sim vs
    rw [valueDeserR, valueDeser]
    exact ⟨.visitArray h, .visitSome, .visitArray h⟩
  | .boolean b => by rw [valueDeserR, valueDeser]; exact ⟨.visitBool b, .visitSome, .visitBool b⟩
  | .sbyte n => by rw [valueDeserR, valueDeser]; exact ⟨.visitInt n, .visitSome, .visitInt n⟩
  | .int16 n => by rw [valueDeserR, valueDeser]; exact ⟨.visitInt n, .visitSome, .visitInt n⟩
  | .int32 n => by rw [valueDeserR, valueDeser]; exact ⟨.visitInt n, .visitSome, .visitInt n⟩
  | .int64 n => by rw [valueDeserR, valueDeser]; exact ⟨.visitInt n, .visitSome, .visitInt n⟩
  | .byte n => by rw [valueDeserR, valueDeser]; exact ⟨.visitInt n, .visitSome, .visitInt n⟩
  | .uint16 n => by rw [valueDeserR, valueDeser]; exact ⟨.visitInt n, .visitSome, .visitInt n⟩
  | .uint32 n => by rw [valueDeserR, valueDeser]; exact ⟨.visitInt n, .visitSome, .visitInt n⟩
  | .uint64 n => by rw [valueDeserR, valueDeser]; exact ⟨.visitInt n, .visitSome, .visitInt n⟩
  | .timeSpan n => by rw [valueDeserR, valueDeser]; exact ⟨.visitInt n, .visitSome, .visitInt n⟩
  | .dateTime n => by rw [valueDeserR, valueDeser]; exact ⟨.visitInt n, .visitSome, .visitInt n⟩
  | .single b => by rw [valueDeserR, valueDeser]; exact ⟨.visitF32 b, .visitSome, .visitF32 b⟩
  | .double b => by rw [valueDeserR, valueDeser]; exact ⟨.visitF64 b, .visitSome, .visitF64 b⟩
  | .char c => by rw [valueDeserR, valueDeser]; exact ⟨.visitChar c, .visitSome, .visitChar c⟩
  | .decimal d => by rw [valueDeserR, valueDeser]; exact ⟨.visitString _, .visitSome, .visitString _⟩
  | .string s => by rw [valueDeserR, valueDeser]; exact ⟨.visitBorrowedStr s, .visitSome, .visitBorrowedStr s⟩
  | .null => by rw [valueDeserR, valueDeser]; exact ⟨.visitUnit, .visitNone, .visitUnit⟩
theorem itemDesers_sim : ∀ vs : List Value, CSims (itemDesersR vs) (itemDesers vs)
  | [] => by rw [itemDesersR, itemDesers]; exact .nil
  | v :: vs => by
    have h1 := valueDeser_sim v
    have h2 := itemDesers_sim vs
    rw [itemDesersR, itemDesers]
    exact .cons (run_sim' h1) h2
theorem memberNodes_sim : ∀ ms : List (Str × Value), MSims (memberNodesR ms) (memberNodes ms)
  | [] => by rw [memberNodesR, memberNodes]; exact .nil
  | (k, v) :: ms => by
    have h1 := valueDeser_sim v
    have h2 := memberNodes_sim ms
    have h3 := itemsOf_sim v
    rw [memberNodesR, memberNodes]
    exact .cons ⟨rfl, run_sim' h1, h3⟩ h2
theorem itemsOf_sim : ∀ v : Value, CSims (itemsOfR v) (itemsOf v)
  | .array vs => by
    have h := itemDesers_sim vs
    rw [itemsOfR, itemsOf]
    exact h
  | .object .. | .boolean _ | .sbyte _ | .int16 _ | .int32 _ | .int64 _ | .byte _ | .uint16 _ | .uint32 _ | .uint64 _
  | .timeSpan _ | .dateTime _ | .single _ | .double _ | .char _ | .decimal _ | .string _ | .null => by
    rw [itemsOfR, itemsOf] <;> first | exact .nil | simp
end

/-- Decoding with texts, without the texts. -/
theorem decode_sim (v : Value) (T : RTy) : Echo Eq (decodeR v T) (decode v T.erase) := run_sim' (valueDeser_sim v) T

theorem decodeR_ok {v : Value} {T : RTy} {d : Dyn} : decodeR v T = .ok d ↔ decode v T.erase = .ok d := by
  have := decode_sim v T
  cases e1 : decodeR v T <;> cases e2 : decode v T.erase <;> rw [e1, e2] at this <;> first | exact this.elim | skip
  · simp
  · cases (this : _ = _); simp

theorem message_sim (m : RemotingMessage) (T : RTy) : Echo Eq (messageR m T) ((messageDeser m).run T.erase) := by
  cases m with
  | value v =>
    have h := valueDeser_sim v
    exact run_sim' (d := ⟨(valueDeserR v).any, (valueDeserR v).any, (valueDeserR v).struct⟩)
      (d' := ⟨(valueDeser v).any, (valueDeser v).any, (valueDeser v).struct⟩) ⟨h.any, h.any, h.struct⟩ T
  | methodCall c =>
    have := run_sim' (d := ⟨.fail (.invalidType .methodCall T.expecting), .fail (.invalidType .methodCall T.expecting),
      .fail (.invalidType .methodCall T.expecting)⟩) (d' := messageDeser (.methodCall c)) ⟨.fail _, .fail _, .fail _⟩ T
    rw [show Deser.runR _ T = .error (.invalidType .methodCall T.expecting) by cases T <;> rfl] at this
    exact this
  | methodReturn c =>
    have := run_sim' (d := ⟨.fail (.invalidType .methodReturn T.expecting), .fail (.invalidType .methodReturn T.expecting),
      .fail (.invalidType .methodReturn T.expecting)⟩) (d' := messageDeser (.methodReturn c)) ⟨.fail _, .fail _, .fail _⟩ T
    rw [show Deser.runR _ T = .error (.invalidType .methodReturn T.expecting) by cases T <;> rfl] at this
    exact this

end Nrbf
