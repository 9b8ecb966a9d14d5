import Verif.GenRun
import Verif.Props.GenSafe
import Verif.Closed
import Mathlib.Data.Nat.Digits.Defs
/-!
# Properties of generated parsers, member by member (C22-C29, C33)
-/
set_option linter.unusedVariables false
namespace Verif.Props
open Verif Verif.Ast Verif.Go Verif.Gen Verif.Wire Verif.Spec Verif.Inspect Verif.Refine

variable {nm : String → String} {ext : Ext} {ord : IterOrder} {fs : List File} {p : Prog} {ctx : Ctx}
variable {n : String} {s : Struct} {A : Nat} {Γ : Fmt} {P : SRel} {D : Nat}

/-! ## Vocabulary -/

/-- What the generated code for struct `n` accepts: name, value, input, what is left of it. -/
def Acc (nm : String → String) (ext : Ext) (fs : List File) (p : Prog) (A : Nat) (ctx : Ctx) : SRel :=
  fun n v i k => (∃ s, (fmtOf nm ext fs).structs n = some s ∧ Accepts p ext A (nm n) (ctxArgs s ctx) i [] v k) ∧ k <:+ i

/-- Leaf `l` is read when record `o` is: it is an ordinary member, or in the case its union's tag
selects. -/
inductive Reads (Γ : Fmt) (ctx : Ctx) (o : Fields) (ms : List Member) : Leaf → Prop
  | leaf {l : Leaf} (h : .leaf l ∈ ms) : Reads Γ ctx o ms l
  | case {l : Leaf} {u : UnionMember} {x : Int} {c : UnionCase} (hu : .union u ∈ ms)
      (hx : refVal Γ ctx o u.tag = some x) (hc : selectCase Γ.K u.cases x = some c) (hl : l ∈ c.members) :
      Reads Γ ctx o ms l

theorem encMembers_append {o : Fields} : ∀ {pre post : List Member} {i r : Bytes},
    EncMembers Γ P ctx D o (pre ++ post) i r ↔ ∃ k, EncMembers Γ P ctx D o pre i k ∧ EncMembers Γ P ctx D o post k r := by
  intro pre
  induction pre with
  | nil => intro post i r; simp [EncMembers]
  | cons m pre ih =>
    intro post i r
    simp only [List.cons_append, EncMembers, ih]
    constructor
    · rintro ⟨k, h1, k', h2, h3⟩; exact ⟨k', ⟨k, h1, h2⟩, h3⟩
    · rintro ⟨k', ⟨k, h1, h2⟩, h3⟩; exact ⟨k, h1, k', h2, h3⟩

theorem encLeaves_mem (hP : SufP P) {o : Fields} {l : Leaf} : ∀ {ls : List Leaf} {i r : Bytes},
    EncLeaves Γ P ctx D o ls i r → l ∈ ls → ∃ a i' k, i = a ++ i' ∧ EncLeaf Γ P ctx D o l i' k := by
  intro ls
  induction ls with
  | nil => intro i r _ h; cases h
  | cons l' ls ih =>
    rintro i r ⟨k, h1, h2⟩ hl
    rcases List.mem_cons.1 hl with rfl | hl
    · exact ⟨[], i, k, rfl, h1⟩
    · obtain ⟨a, i', k', rfl, h3⟩ := ih h2 hl
      obtain ⟨b, hb⟩ := encLeaf_suffix hP h1
      exact ⟨b ++ a, i', k', by rw [List.append_assoc, hb], h3⟩

theorem encMembers_mem (hP : SufP P) {o : Fields} {m : Member} {ms : List Member} {i r : Bytes}
    (h : EncMembers Γ P ctx D o ms i r) (hm : m ∈ ms) : ∃ a i' k, i = a ++ i' ∧ EncMember Γ P ctx D o m i' k := by
  obtain ⟨pre, post, rfl⟩ := List.append_of_mem hm
  obtain ⟨i', h1, k, h2, _⟩ := encMembers_append.1 h
  obtain ⟨a, ha⟩ := encMembers_suffix hP h1
  exact ⟨a, i', k, ha.symm, h2⟩

/-- Where a leaf was read: `i` is what it could see, `b` what the length of its union cut off. -/
theorem encMembers_reads (hP : SufP P) {o : Fields} {l : Leaf} {ms : List Member} {w r : Bytes}
    (h : EncMembers Γ P ctx D o ms w r) (hl : Reads Γ ctx o ms l) :
    ∃ a i b k, w = a ++ i ++ b ∧ EncLeaf Γ P ctx D o l i k ∧ ((∀ u, .union u ∈ ms → u.length = none) → b = []) := by
  cases hl with
  | leaf hl =>
    obtain ⟨a, i, k, rfl, h1⟩ := encMembers_mem hP h hl
    exact ⟨a, i, [], k, by simp, h1, fun _ => rfl⟩
  | case hu hx hc hl =>
    rename_i u x c
    obtain ⟨a, i, k, rfl, h1⟩ := encMembers_mem hP h hu
    have key : ∀ {i r}, EncCases Γ P ctx D o u i r → ∃ a i' k, i = a ++ i' ∧ EncLeaf Γ P ctx D o l i' k := by
      rintro i r ⟨x', hx', h2, _⟩
      rw [hx] at hx'; cases hx'
      rw [hc] at h2
      exact encLeaves_mem hP h2 hl
    simp only [EncMember] at h1
    split at h1
    · obtain ⟨a', i', k', rfl, h2⟩ := key h1
      exact ⟨a ++ a', i', [], k', by simp, h2, fun _ => rfl⟩
    · rename_i c hc
      obtain ⟨win, ⟨rfl, _⟩, h2⟩ := h1
      obtain ⟨a', i', k', rfl, h3⟩ := key h2
      exact ⟨a ++ a', i', k, k', by simp, h3, fun hn => by rw [hn u hu] at hc; cases hc⟩

theorem encRem_list {b : Base} : ∀ {vs : List Val} {i : Bytes}, EncRem Γ P b vs i → EncList Γ P b vs i [] := by
  intro vs
  induction vs with
  | nil => intro i h; exact h
  | cons v vs ih => rintro i ⟨_, m, h1, h2⟩; exact ⟨m, h1, ih h2⟩

/-! ## What was accepted, taken apart -/

theorem acc_suf : SufP (Acc nm ext fs p A ctx) := fun _ _ _ _ h => h.2

/-- The object returned has the struct's fields, and they encode the consumed input member by member,
nested structs being what their own generated code accepts. -/
theorem parse_members (G : Generated nm ext ord fs p ctx) (hord : OrdOK (fmtOf nm ext fs))
    (hs : (fmtOf nm ext fs).structs n = some s) (he : s.extern = false) {w hid : Bytes} (hw : w.length < 2 ^ 63)
    {v : Val} {r : Bytes} (h : Accepts p ext A (nm n) (ctxArgs s ctx) w hid v r) :
    ∃ o, v = .obj (nm n) o ∧ HasFields (fmtOf nm ext fs) s o ∧
      EncMembers (fmtOf nm ext fs) (Acc nm ext fs p A ctx) ctx w.length o s.ms w r := by
  obtain ⟨k, hk⟩ := (accepts_iff G hs hid hw).1 h
  cases k with
  | zero => cases hk
  | succ k =>
    simp only [decStruct, hs, he, Bool.false_eq_true, if_false] at hk
    obtain ⟨⟨o, w'⟩, h1, h2⟩ := DOut.bind_eq_ok.1 hk
    cases h2
    have hsk := G.fmtOK.structs n s hs he
    refine ⟨o, rfl, ?_, ?_⟩
    · unfold HasFields
      rw [decMembers_keys h1]; simp [zeroObj]
    · refine decMembers_sound ?_ (decStruct_suffix k) G.ctxOK hsk hw (fun _ h => h) (names_nodup hsk)
        (hord n s hs he) (zeroObj_typed hsk) (zeroObj_zeroOn hsk) (Nat.le_refl _) h1
      intro n' w' v' r' hw' hd
      have : ∃ s', (fmtOf nm ext fs).structs n' = some s' := by
        cases hs' : (fmtOf nm ext fs).structs n' with
        | some s' => exact ⟨s', rfl⟩
        | none =>
          cases k with
          | zero => cases hd
          | succ k => simp [decStruct, hs'] at hd
      obtain ⟨s', hs'⟩ := this
      exact ⟨⟨s', hs', (accepts_iff G hs' [] hw').2 ⟨k, hd⟩⟩, decStruct_suffix k n' w' v' r' hd⟩

section
variable (G : Generated nm ext ord fs p ctx) (hord : OrdOK (fmtOf nm ext fs))
    (hs : (fmtOf nm ext fs).structs n = some s) (he : s.extern = false) {w hid : Bytes} (hw : w.length < 2 ^ 63)
    {o : Fields} {r : Bytes} (h : Accepts p ext A (nm n) (ctxArgs s ctx) w hid (.obj (nm n) o) r)
include G hord hs he hw h

theorem parse_reads {l : Leaf} (hl : Reads (fmtOf nm ext fs) ctx o s.ms l) :
    ∃ a i b k, w = a ++ i ++ b ∧ EncLeaf (fmtOf nm ext fs) (Acc nm ext fs p A ctx) ctx w.length o l i k ∧
      ((∀ u, .union u ∈ s.ms → u.length = none) → b = []) := by
  obtain ⟨o', ho', _, h1⟩ := parse_members G hord hs he hw h
  cases ho'
  exact encMembers_reads acc_suf h1 hl

/-! ## C22, C23 -/

/-- Big-endian value of bytes. -/
def bigEndian (bs : Bytes) : Nat := Nat.ofDigits 256 (bs.reverse.map (·.toNat))

omit G hord hs he hw h in
theorem beNat_eq (bs : Bytes) : beNat bs = bigEndian bs := by
  induction bs with
  | nil => rfl
  | cons b bs ih =>
    simp only [beNat, ih, bigEndian, List.reverse_cons, List.map_append, List.map_cons, List.map_nil,
      Nat.ofDigits_append, Nat.ofDigits_singleton, List.length_map, List.length_reverse]
    rw [Nat.mul_comm, Nat.add_comm]

/-- **C22, C23.** Every integer field that is read equals the big-endian value of exactly as many
bytes of the input as its size says, and that value is among the listed ones if there is a list. -/
theorem int_field {f : String} {t : IntType} (hl : Reads (fmtOf nm ext fs) ctx o s.ms (.field ⟨f, .base (.int t)⟩)) :
    ∃ a bs b, w = a ++ bs ++ b ∧ bs.length = t.size / 8 ∧ getF o (nm f) = some (.num (bigEndian bs)) ∧
      ∀ l, t.constraint = some l → listHas (fmtOf nm ext fs).K l (bigEndian bs) = true := by
  obtain ⟨a, i, b, k, rfl, ⟨v, hv, bs, rfl, hlen, rfl, hc⟩, _⟩ := parse_reads G hord hs he hw h hl
  rw [beNat_eq] at hv hc
  exact ⟨a, bs, k ++ b, by simp, hlen, hv, hc⟩

/-! ## C24 -/

/-- **C24.** A fixed array has exactly the declared number of elements. -/
theorem fixed_array_length {f : String} {b : Base} {k : Integer}
    (hl : Reads (fmtOf nm ext fs) ctx o s.ms (.field ⟨f, .fixedArray b k⟩)) :
    ∃ a i c j vs, w = a ++ i ++ c ∧ getF o (nm f) = some (.array vs) ∧ ival (fmtOf nm ext fs).K k = some (vs.length : Int) ∧
      EncList (fmtOf nm ext fs) (Acc nm ext fs p A ctx) b vs i j := by
  obtain ⟨a, i, c, j, hw, ⟨v, hv, vs, rfl, hk, hvs⟩, _⟩ := parse_reads G hord hs he hw h hl
  exact ⟨a, i, c, j, vs, hw, hv, hk, hvs⟩

/-- **C24.** A counted array has exactly as many elements as the field or context field it refers to
says. -/
theorem counted_array_length {f : String} {b : Base} {ref : IDRef}
    (hl : Reads (fmtOf nm ext fs) ctx o s.ms (.field ⟨f, .varArray b (some (.idRef ref))⟩)) :
    ∃ a i c j vs, w = a ++ i ++ c ∧ getF o (nm f) = some (.slice vs) ∧ refVal (fmtOf nm ext fs) ctx o ref = some (vs.length : Int) ∧
      EncList (fmtOf nm ext fs) (Acc nm ext fs p A ctx) b vs i j := by
  obtain ⟨a, i, c, j, hw, ⟨v, hv, vs, rfl, hk, hvs⟩, _⟩ := parse_reads G hord hs he hw h hl
  exact ⟨a, i, c, j, vs, hw, hv, hk, hvs⟩

/-- **C24.** The elements of a to-the-end array use up all the bytes it can see: those up to the end
of the length of the union it is in, if there is one, else all of them. -/
theorem end_array_consumes {f : String} {b : Base}
    (hl : Reads (fmtOf nm ext fs) ctx o s.ms (.field ⟨f, .varArray b none⟩)) :
    ∃ a i c vs, w = a ++ i ++ c ∧ getF o (nm f) = some (.slice vs) ∧
      EncList (fmtOf nm ext fs) (Acc nm ext fs p A ctx) b vs i [] ∧
      ((∀ u, .union u ∈ s.ms → u.length = none) → c = []) := by
  obtain ⟨a, i, c, j, hw, ⟨v, hv, vs, rfl, hvs, rfl⟩, hc⟩ := parse_reads G hord hs he hw h hl
  exact ⟨a, i, c, vs, hw, hv, encRem_list hvs, hc⟩

/-- **C24, C27.** An array extending up to `k` bytes before the end leaves exactly the last `k` of the
bytes it can see. -/
theorem leftover_array_consumes {f : String} {b : Base} {k : Integer}
    (hl : Reads (fmtOf nm ext fs) ctx o s.ms (.field ⟨f, .varArray b (some (.leftover k))⟩)) :
    ∃ a win rest c vs, w = a ++ (win ++ rest) ++ c ∧ getF o (nm f) = some (.slice vs) ∧
      ival (fmtOf nm ext fs).K k = some (rest.length : Int) ∧
      EncList (fmtOf nm ext fs) (Acc nm ext fs p A ctx) b vs win [] ∧
      ((∀ u, .union u ∈ s.ms → u.length = none) → c = []) := by
  obtain ⟨a, i, c, j, hw, ⟨v, hv, vs, win, rfl, ⟨rfl, hk⟩, hvs⟩, hc⟩ := parse_reads G hord hs he hw h hl
  exact ⟨a, win, j, c, vs, hw, hv, hk, encRem_list hvs, hc⟩

/-! ## C25 -/

/-- **C25.** A string is the bytes before the first zero byte from where it starts. -/
theorem nulterm_field {f : String} (hl : Reads (fmtOf nm ext fs) ctx o s.ms (.field ⟨f, .nulterm⟩)) :
    ∃ a t b, w = a ++ t ++ 0 :: b ∧ (0 : UInt8) ∉ t ∧ getF o (nm f) = some (.str t) := by
  obtain ⟨a, i, b, k, rfl, ⟨v, hv, t, rfl, h0, rfl⟩, _⟩ := parse_reads G hord hs he hw h hl
  exact ⟨a, t, k ++ b, by simp, h0, hv⟩

/-! ## C26, C27 -/

/-- **C26.** The tag of a union selects the case; its members are read, the fields of the others are
zero. If no case is selected nothing is read. -/
theorem union_selected {u : UnionMember} (hu : .union u ∈ s.ms) :
    ∃ x a i b k, refVal (fmtOf nm ext fs) ctx o u.tag = some x ∧ w = a ++ i ++ b ∧
      (match selectCase (fmtOf nm ext fs).K u.cases x with
       | some c => EncLeaves (fmtOf nm ext fs) (Acc nm ext fs p A ctx) ctx w.length o c.members i k
       | none => k = i) ∧
      ∀ c ∈ u.cases, some c ≠ selectCase (fmtOf nm ext fs).K u.cases x → ∀ f ∈ leafFields c.members,
        getF o (nm f.name) = some (zeroTy (fmtOf nm ext fs) f.type) := by
  obtain ⟨o', ho', _, h1⟩ := parse_members G hord hs he hw h
  cases ho'
  obtain ⟨a, i, k, hi, h2⟩ := encMembers_mem acc_suf h1 hu
  have key : ∀ {i k}, EncCases (fmtOf nm ext fs) (Acc nm ext fs p A ctx) ctx w.length o u i k → ∃ x,
      refVal (fmtOf nm ext fs) ctx o u.tag = some x ∧
      (match selectCase (fmtOf nm ext fs).K u.cases x with
       | some c => EncLeaves (fmtOf nm ext fs) (Acc nm ext fs p A ctx) ctx w.length o c.members i k
       | none => k = i) ∧
      ∀ c ∈ u.cases, some c ≠ selectCase (fmtOf nm ext fs).K u.cases x → ∀ f ∈ leafFields c.members,
        getF o (nm f.name) = some (zeroTy (fmtOf nm ext fs) f.type) := by
    rintro i k ⟨x, hx, h3, h4⟩
    refine ⟨x, hx, ?_, h4⟩
    split
    · rename_i c hc; rw [hc] at h3; exact h3
    · rename_i hc; rw [hc] at h3; exact h3.symm
  simp only [EncMember] at h2
  split at h2
  · obtain ⟨x, h3, h4, h5⟩ := key h2
    exact ⟨x, a, i, [], k, h3, by simpa using hi, h4, h5⟩
  · obtain ⟨win, ⟨rfl, _⟩, h2⟩ := h2
    obtain ⟨x, h3, h4, h5⟩ := key h2
    exact ⟨x, a, win, k, [], h3, by simpa using hi, h4, h5⟩

/-- **C27.** A union with a length occupies exactly that many bytes, a union up to `k` bytes before the
end leaves exactly `k`; its members are read from those bytes only, and use them up. -/
theorem union_window {u : UnionMember} (hu : .union u ∈ s.ms) {c : LengthConstraint} (hc : u.length = some c) :
    ∃ a win b, w = a ++ win ++ b ∧
      (∀ ref, c = .idRef ref → refVal (fmtOf nm ext fs) ctx o ref = some (win.length : Int)) ∧
      (∀ k, c = .leftover k → ival (fmtOf nm ext fs).K k = some (b.length : Int)) ∧
      EncCases (fmtOf nm ext fs) (Acc nm ext fs p A ctx) ctx w.length o u win [] := by
  obtain ⟨o', ho', _, h1⟩ := parse_members G hord hs he hw h
  cases ho'
  obtain ⟨a, i, k, hi, h2⟩ := encMembers_mem acc_suf h1 hu
  simp only [EncMember, hc] at h2
  obtain ⟨win, ⟨rfl, h3⟩, h2⟩ := h2
  refine ⟨a, win, k, by simpa using hi, ?_, ?_, h2⟩
  · rintro ref rfl; exact h3
  · rintro k' rfl; exact h3

/-! ## C29 -/

/-- **C29.** An ordinary `@ptr` member holds the number of bytes the members before it occupy. -/
theorem ptr_offset {f : String} {pre post : List Member} (hm : s.ms = pre ++ .leaf (.field ⟨f, .ptr⟩) :: post) :
    ∃ c i, w = c ++ i ∧ EncMembers (fmtOf nm ext fs) (Acc nm ext fs p A ctx) ctx w.length o pre w i ∧
      getF o (nm f) = some (.num c.length) := by
  obtain ⟨o', ho', _, h1⟩ := parse_members G hord hs he hw h
  cases ho'
  rw [hm] at h1
  obtain ⟨i, h1, k, ⟨v, hv, rfl, rfl⟩, _⟩ := encMembers_append.1 h1
  obtain ⟨c, hc⟩ := encMembers_suffix acc_suf h1
  refine ⟨c, k, hc.symm, h1, ?_⟩
  have := congrArg List.length hc
  simp only [List.length_append] at this
  refine hv.trans ?_
  congr 2; omega

/-! ## C33 -/

/-- **C33.** A struct-typed field holds exactly what that struct's own generated code yields on the
bytes from there on, with the same context values. -/
theorem nested_field {f n' : String} {s' : Struct} (hs' : (fmtOf nm ext fs).structs n' = some s')
    (hl : Reads (fmtOf nm ext fs) ctx o s.ms (.field ⟨f, .base (.struct n')⟩)) :
    ∃ a i b v k, w = a ++ i ++ b ∧ getF o (nm f) = some v ∧ Accepts p ext A (nm n') (ctxArgs s' ctx) i [] v k ∧
      ((∀ u, .union u ∈ s.ms → u.length = none) → b = []) := by
  obtain ⟨a, i, b, k, hi, ⟨v, hv, ⟨s'', hs'', h1⟩, _⟩, hb⟩ := parse_reads G hord hs he hw h hl
  rw [hs'] at hs''; cases hs''
  exact ⟨a, i, b, v, k, hi, hv, h1, hb⟩

/-- **C33.** For an ordinary member of struct type: the members before it occupy the bytes up to where
its code starts, and the members after it are read from what its code returns. -/
theorem nested_continues {f n' : String} {s' : Struct} (hs' : (fmtOf nm ext fs).structs n' = some s')
    {pre post : List Member} (hm : s.ms = pre ++ .leaf (.field ⟨f, .base (.struct n')⟩) :: post) :
    ∃ i v k, EncMembers (fmtOf nm ext fs) (Acc nm ext fs p A ctx) ctx w.length o pre w i ∧
      getF o (nm f) = some v ∧ Accepts p ext A (nm n') (ctxArgs s' ctx) i [] v k ∧
      EncMembers (fmtOf nm ext fs) (Acc nm ext fs p A ctx) ctx w.length o post k r := by
  obtain ⟨o', ho', _, h1⟩ := parse_members G hord hs he hw h
  cases ho'
  rw [hm] at h1
  obtain ⟨i, h1, k, ⟨v, hv, ⟨s'', hs'', h2⟩, _⟩, h3⟩ := encMembers_append.1 h1
  rw [hs'] at hs''; cases hs''
  exact ⟨i, v, k, h1, hv, h2, h3⟩

end

/-! ## Exact outcomes of structs with one field -/

theorem decStruct_single {f : String} {t : Ty} (hs : Γ.structs n = some s) (hm : s.members = some [.leaf (.field ⟨f, t⟩)])
    (k : Nat) (w : Bytes) : decStruct Γ A ctx (k + 1) n w =
      (decTy Γ A (decStruct Γ A ctx k) k ctx w.length [(Γ.nm f, zeroTy Γ t)] w t >>= fun q =>
        .ok (.obj (Γ.nm n) [(Γ.nm f, q.1)], q.2)) := by
  have he : s.extern = false := by simp [Struct.extern, hm]
  have hms : s.ms = [.leaf (.field ⟨f, t⟩)] := by simp [Struct.ms, hm]
  simp only [decStruct, hs, he, Bool.false_eq_true, if_false, hms, decMembers, decMember, decLeaf, zeroObj, fieldsOf,
    memberFields, leafFields, List.flatMap_cons, List.flatMap_nil, List.append_nil, List.filterMap_cons,
    List.filterMap_nil, List.map_cons, List.map_nil]
  cases decTy Γ A (decStruct Γ A ctx k) k ctx w.length [(Γ.nm f, zeroTy Γ t)] w t with
  | ok q => obtain ⟨v, r⟩ := q; simp [setF]
  | err m => rfl
  | panic m => rfl
  | timeout => rfl

section
variable (G : Generated nm ext ord fs p ctx) (hs : (fmtOf nm ext fs).structs n = some s) {w : Bytes} (hid : Bytes)
  (hw : w.length < 2 ^ 63)
include G hs hw

/-- **C22, C23.** A struct of one integer field: too few bytes are an error; a value that is not listed
is an error; anything else is accepted, with the big-endian value of the first bytes. -/
theorem int_outcome {f : String} {t : IntType} (hm : s.members = some [.leaf (.field ⟨f, .base (.int t)⟩)]) :
    (w.length < t.size / 8 → Rejects p ext A (nm n) (ctxArgs s ctx) w hid "data too short") ∧
    (t.size / 8 ≤ w.length →
      ((∀ l, t.constraint = some l → listHas (fmtOf nm ext fs).K l (bigEndian (w.take (t.size / 8))) = true) →
        Accepts p ext A (nm n) (ctxArgs s ctx) w hid
          (.obj (nm n) [(nm f, .num (bigEndian (w.take (t.size / 8))))]) (w.drop (t.size / 8))) ∧
      (∀ l, t.constraint = some l → listHas (fmtOf nm ext fs).K l (bigEndian (w.take (t.size / 8))) = false →
        Rejects p ext A (nm n) (ctxArgs s ctx) w hid "integer constraint violated")) := by
  have key := decStruct_single (A := A) (ctx := ctx) hs hm 0 w
  simp only [decTy, decBase, decInt, beNat_eq] at key
  refine ⟨fun hlt => (rejects_iff G hs hid hw).2 ⟨1, ?_⟩, fun hle => ⟨fun hc => (accepts_iff G hs hid hw).2 ⟨1, ?_⟩,
    fun l hl hc => (rejects_iff G hs hid hw).2 ⟨1, ?_⟩⟩⟩
  · rw [key, if_pos hlt]; rfl
  · rw [key, if_neg (by omega)]
    cases hl : t.constraint with
    | none => rfl
    | some l => simp only [hc l hl, if_true]; rfl
  · rw [key, if_neg (by omega), hl]
    simp only [hc, Bool.false_eq_true, if_false]; rfl

/-- **C25.** A struct of one string: accepted with the bytes before the first zero byte, leaving what
follows it; an error if there is no zero byte. -/
theorem nulterm_outcome {f : String} (hm : s.members = some [.leaf (.field ⟨f, .nulterm⟩)]) :
    (∀ t b, w = t ++ 0 :: b → (0 : UInt8) ∉ t → Accepts p ext A (nm n) (ctxArgs s ctx) w hid (.obj (nm n) [(nm f, .str t)]) b) ∧
    ((0 : UInt8) ∉ w → Rejects p ext A (nm n) (ctxArgs s ctx) w hid "could not parse nul-term string") := by
  have key := decStruct_single (A := A) (ctx := ctx) hs hm 0 w
  simp only [decTy] at key
  refine ⟨?_, fun h0 => (rejects_iff G hs hid hw).2 ⟨1, ?_⟩⟩
  · rintro t b rfl h0
    refine (accepts_iff G hs hid hw).2 ⟨1, ?_⟩
    have := indexByte0_append b h0
    rw [key, if_neg (by omega), this]
    simp [show (fmtOf nm ext fs).nm = nm from rfl]
  · rw [key, if_pos]
    · rfl
    · by_contra hc
      exact h0 (by rw [(indexByte0_spec hc).1]; simp)

/-- **C33.** A struct of one struct-typed field behaves as that struct's own code: same rest, same
error, panics and hangs when it does. -/
theorem nested_outcome {f n' : String} {s' : Struct} (hs' : (fmtOf nm ext fs).structs n' = some s')
    (hm : s.members = some [.leaf (.field ⟨f, .base (.struct n')⟩)]) :
    (∀ v r, Accepts p ext A (nm n') (ctxArgs s' ctx) w hid v r →
      Accepts p ext A (nm n) (ctxArgs s ctx) w hid (.obj (nm n) [(nm f, v)]) r) ∧
    (∀ m, Rejects p ext A (nm n') (ctxArgs s' ctx) w hid m → Rejects p ext A (nm n) (ctxArgs s ctx) w hid m) ∧
    (Panics p ext A (nm n') (ctxArgs s' ctx) w hid → Panics p ext A (nm n) (ctxArgs s ctx) w hid) ∧
    (Hangs p ext A (nm n') (ctxArgs s' ctx) w hid → Hangs p ext A (nm n) (ctxArgs s ctx) w hid) := by
  have key := fun k => decStruct_single (A := A) (ctx := ctx) hs hm k w
  simp only [decTy, decBase] at key
  refine ⟨fun v r h => ?_, fun m h => ?_, fun h => ?_, fun h => ?_⟩
  · obtain ⟨k, hk⟩ := (accepts_iff G hs' hid hw).1 h
    exact (accepts_iff G hs hid hw).2 ⟨k + 1, by rw [key, hk]; rfl⟩
  · obtain ⟨k, hk⟩ := (rejects_iff G hs' hid hw).1 h
    exact (rejects_iff G hs hid hw).2 ⟨k + 1, by rw [key, hk]; rfl⟩
  · obtain ⟨k, m, hk⟩ := (panics_iff G hs' hid hw).1 h
    exact (panics_iff G hs hid hw).2 ⟨k + 1, m, by rw [key, hk]; rfl⟩
  · refine (hangs_iff G hs hid hw).2 fun k => ?_
    cases k with
    | zero => rfl
    | succ k => rw [key, (hangs_iff G hs' hid hw).1 h k]; rfl

end

/-! ## C28 -/

theorem decMembers_append {S : SDec} {L : Nat} : ∀ {ms ms' : List Member} {o : Fields} {w : Bytes},
    decMembers Γ A S L ctx D (ms ++ ms') o w = (decMembers Γ A S L ctx D ms o w >>= fun q => decMembers Γ A S L ctx D ms' q.1 q.2) := by
  intro ms
  induction ms with
  | nil => intro ms' o w; rfl
  | cons m ms ih =>
    intro ms' o w
    simp only [List.cons_append, decMembers, ih]
    cases decMember Γ A S L ctx D o w m <;> rfl

/-- **C28.** `b` has the members of `a` followed by `eos`. Then `b` is accepted exactly when `a` is and
nothing remains, with the same fields; `b` gives the trailing-data error when `a` is accepted with
something remaining; and fails, panics or hangs when `a` does. -/
theorem eos_outcome (G : Generated nm ext ord fs p ctx) {a b : Struct} (ha : (fmtOf nm ext fs).structs a.name = some a)
    (hb : (fmtOf nm ext fs).structs b.name = some b) {ms : List Member} (hma : a.members = some ms)
    (hmb : b.members = some (ms ++ [.leaf .eos])) {w : Bytes} (hid : Bytes) (hw : w.length < 2 ^ 63) :
    (∀ o r, Accepts p ext A (nm b.name) (ctxArgs b ctx) w hid (.obj (nm b.name) o) r ↔
      r = [] ∧ Accepts p ext A (nm a.name) (ctxArgs a ctx) w hid (.obj (nm a.name) o) []) ∧
    (∀ v r, Accepts p ext A (nm a.name) (ctxArgs a ctx) w hid v r → r ≠ [] →
      Rejects p ext A (nm b.name) (ctxArgs b ctx) w hid "trailing data disallowed") ∧
    (∀ m, Rejects p ext A (nm a.name) (ctxArgs a ctx) w hid m → Rejects p ext A (nm b.name) (ctxArgs b ctx) w hid m) ∧
    (Panics p ext A (nm a.name) (ctxArgs a ctx) w hid → Panics p ext A (nm b.name) (ctxArgs b ctx) w hid) ∧
    (Hangs p ext A (nm a.name) (ctxArgs a ctx) w hid → Hangs p ext A (nm b.name) (ctxArgs b ctx) w hid) := by
  have hea : a.extern = false := by simp [Struct.extern, hma]
  have heb : b.extern = false := by simp [Struct.extern, hmb]
  have hz : zeroObj (fmtOf nm ext fs) b = zeroObj (fmtOf nm ext fs) a := by
    simp [zeroObj, Struct.ms, hma, hmb, fieldsOf, memberFields, leafFields]
  have ka : ∀ k, decStruct (fmtOf nm ext fs) A ctx (k + 1) a.name w =
      (decMembers (fmtOf nm ext fs) A (decStruct (fmtOf nm ext fs) A ctx k) k ctx w.length ms (zeroObj (fmtOf nm ext fs) a) w >>=
        fun q => .ok (.obj (nm a.name) q.1, q.2)) := by
    intro k
    simp only [decStruct, ha, hea, Bool.false_eq_true, if_false, Struct.ms, hma, Option.getD_some]; rfl
  have kb : ∀ k, decStruct (fmtOf nm ext fs) A ctx (k + 1) b.name w =
      (decMembers (fmtOf nm ext fs) A (decStruct (fmtOf nm ext fs) A ctx k) k ctx w.length ms (zeroObj (fmtOf nm ext fs) a) w >>=
        fun q => if 0 < q.2.length then .err "trailing data disallowed" else .ok (.obj (nm b.name) q.1, q.2)) := by
    intro k
    simp only [decStruct, hb, heb, Bool.false_eq_true, if_false, Struct.ms, hmb, Option.getD_some, hz, decMembers_append]
    cases decMembers (fmtOf nm ext fs) A (decStruct (fmtOf nm ext fs) A ctx k) k ctx w.length ms (zeroObj (fmtOf nm ext fs) a) w with
    | ok q =>
      simp only [DOut.ok_bind, decMembers, decMember, decLeaf]
      split <;> rfl
    | err m => rfl
    | panic m => rfl
    | timeout => rfl
  refine ⟨fun o r => ⟨fun h => ?_, ?_⟩, fun v r h hr => ?_, fun m h => ?_, fun h => ?_, fun h => ?_⟩
  · obtain ⟨k, hk⟩ := (accepts_iff G hb hid hw).1 h
    cases k with
    | zero => cases hk
    | succ k =>
      rw [kb] at hk
      obtain ⟨⟨o', w'⟩, h1, h2⟩ := DOut.bind_eq_ok.1 hk
      split at h2
      · cases h2
      · rename_i hl
        have : w' = [] := List.eq_nil_of_length_eq_zero (by simpa using hl)
        subst this
        cases h2
        exact ⟨rfl, (accepts_iff G ha hid hw).2 ⟨k + 1, by rw [ka, h1]; rfl⟩⟩
  · rintro ⟨rfl, h⟩
    obtain ⟨k, hk⟩ := (accepts_iff G ha hid hw).1 h
    cases k with
    | zero => cases hk
    | succ k =>
      rw [ka] at hk
      obtain ⟨⟨o', w'⟩, h1, h2⟩ := DOut.bind_eq_ok.1 hk
      cases h2
      exact (accepts_iff G hb hid hw).2 ⟨k + 1, by rw [kb, h1]; rfl⟩
  · obtain ⟨k, hk⟩ := (accepts_iff G ha hid hw).1 h
    cases k with
    | zero => cases hk
    | succ k =>
      rw [ka] at hk
      obtain ⟨⟨o', w'⟩, h1, h2⟩ := DOut.bind_eq_ok.1 hk
      cases h2
      refine (rejects_iff G hb hid hw).2 ⟨k + 1, ?_⟩
      rw [kb, h1, DOut.ok_bind, if_pos (List.length_pos_of_ne_nil hr)]
  · obtain ⟨k, hk⟩ := (rejects_iff G ha hid hw).1 h
    cases k with
    | zero => cases hk
    | succ k =>
      rw [ka] at hk
      refine (rejects_iff G hb hid hw).2 ⟨k + 1, ?_⟩
      rw [kb]
      revert hk
      cases decMembers (fmtOf nm ext fs) A (decStruct (fmtOf nm ext fs) A ctx k) k ctx w.length ms (zeroObj (fmtOf nm ext fs) a) w <;>
        intro hk <;> cases hk
      rfl
  · obtain ⟨k, m, hk⟩ := (panics_iff G ha hid hw).1 h
    cases k with
    | zero => cases hk
    | succ k =>
      rw [ka] at hk
      refine (panics_iff G hb hid hw).2 ⟨k + 1, m, ?_⟩
      rw [kb]
      revert hk
      cases decMembers (fmtOf nm ext fs) A (decStruct (fmtOf nm ext fs) A ctx k) k ctx w.length ms (zeroObj (fmtOf nm ext fs) a) w <;>
        intro hk <;> cases hk
      rfl
  · refine (hangs_iff G hb hid hw).2 fun k => ?_
    have hk := (hangs_iff G ha hid hw).1 h k
    cases k with
    | zero => rfl
    | succ k =>
      rw [ka] at hk
      rw [kb]
      revert hk
      cases decMembers (fmtOf nm ext fs) A (decStruct (fmtOf nm ext fs) A ctx k) k ctx w.length ms (zeroObj (fmtOf nm ext fs) a) w <;>
        intro hk <;> cases hk
      rfl

/-! ## C27, exact outcomes -/

/-- **C27.** `a` consists of a union without length, `b` of the same union with its length in a context
field. Then `b` on an input is `a` on as many of its first bytes as the length says: too few bytes are an
error, and so are bytes left over. The bytes after those do not matter. -/
theorem union_window_outcome (G : Generated nm ext ord fs p ctx) {a b : Struct} (ha : (fmtOf nm ext fs).structs a.name = some a)
    (hb : (fmtOf nm ext fs).structs b.name = some b) {u : UnionMember} (hu : u.length = none) (hp : NoPtr u) {ref : IDRef}
    (hma : a.members = some [.union u]) (hmb : b.members = some [.union { u with length := some (.idRef ref) }])
    (hsc : ref.scope ≠ "") {x : Nat} (hx : refVal (fmtOf nm ext fs) ctx [] ref = some (x : Int)) (hx63 : x < 2 ^ 63)
    {w : Bytes} (hid : Bytes) (hw : w.length < 2 ^ 63) :
    (w.length < x → Rejects p ext A (nm b.name) (ctxArgs b ctx) w hid "data too short") ∧
    (x ≤ w.length →
      (∀ o, Accepts p ext A (nm a.name) (ctxArgs a ctx) (w.take x) [] (.obj (nm a.name) o) [] →
        Accepts p ext A (nm b.name) (ctxArgs b ctx) w hid (.obj (nm b.name) o) (w.drop x)) ∧
      (∀ v r, r ≠ [] → Accepts p ext A (nm a.name) (ctxArgs a ctx) (w.take x) [] v r →
        Rejects p ext A (nm b.name) (ctxArgs b ctx) w hid "trailing data disallowed") ∧
      (∀ m, Rejects p ext A (nm a.name) (ctxArgs a ctx) (w.take x) [] m → Rejects p ext A (nm b.name) (ctxArgs b ctx) w hid m) ∧
      (Panics p ext A (nm a.name) (ctxArgs a ctx) (w.take x) [] → Panics p ext A (nm b.name) (ctxArgs b ctx) w hid) ∧
      (Hangs p ext A (nm a.name) (ctxArgs a ctx) (w.take x) [] → Hangs p ext A (nm b.name) (ctxArgs b ctx) w hid)) := by
  have hea : a.extern = false := by simp [Struct.extern, hma]
  have heb : b.extern = false := by simp [Struct.extern, hmb]
  have hz : zeroObj (fmtOf nm ext fs) b = zeroObj (fmtOf nm ext fs) a := by
    simp [zeroObj, Struct.ms, hma, hmb, fieldsOf, memberFields]
  have hx' : ∀ o, refVal (fmtOf nm ext fs) ctx o ref = some (x : Int) := by
    intro o; rw [← hx]; simp [refVal, hsc]
  have hwx : wrap64 (x : Int) = x := by unfold wrap64; omega
  have hwt : (w.take x).length < 2 ^ 63 := by simp only [List.length_take]; omega
  have ka : ∀ k, decStruct (fmtOf nm ext fs) A ctx (k + 1) a.name (w.take x) =
      (decCases (fmtOf nm ext fs) A (decStruct (fmtOf nm ext fs) A ctx k) k ctx w.length u (zeroObj (fmtOf nm ext fs) a) (w.take x) >>=
        fun q => .ok (.obj (nm a.name) q.1, q.2)) := by
    intro k
    simp only [decStruct, ha, hea, Bool.false_eq_true, if_false, Struct.ms, hma, Option.getD_some, decMembers, decMember, hu]
    rw [decCases_noptr hp (D' := w.length)]
    cases decCases (fmtOf nm ext fs) A (decStruct (fmtOf nm ext fs) A ctx k) k ctx w.length u (zeroObj (fmtOf nm ext fs) a) (w.take x) <;> rfl
  have kb : ∀ k, decStruct (fmtOf nm ext fs) A ctx (k + 1) b.name w =
      if w.length < x then .err "data too short" else
      (decCases (fmtOf nm ext fs) A (decStruct (fmtOf nm ext fs) A ctx k) k ctx w.length u (zeroObj (fmtOf nm ext fs) a) (w.take x) >>=
        fun q => if 0 < q.2.length then .err "trailing data disallowed" else .ok (.obj (nm b.name) q.1, w.drop x)) := by
    intro k
    simp only [decStruct, hb, heb, Bool.false_eq_true, if_false, Struct.ms, hmb, Option.getD_some, hz, decMembers, decMember,
      decConstrained, hx', hwx]
    by_cases hlt : w.length < x
    · rw [if_pos (by omega), if_pos hlt]; rfl
    · rw [if_neg (by omega), if_neg hlt, decWindow, if_neg (by omega)]
      simp only [Int.toNat_natCast]
      have : ∀ w', decCases (fmtOf nm ext fs) A (decStruct (fmtOf nm ext fs) A ctx k) k ctx w.length { u with length := some (.idRef ref) }
        (zeroObj (fmtOf nm ext fs) a) w' = decCases (fmtOf nm ext fs) A (decStruct (fmtOf nm ext fs) A ctx k) k ctx w.length u
        (zeroObj (fmtOf nm ext fs) a) w' := fun _ => rfl
      rw [this]
      cases decCases (fmtOf nm ext fs) A (decStruct (fmtOf nm ext fs) A ctx k) k ctx w.length u (zeroObj (fmtOf nm ext fs) a) (w.take x) with
      | ok q => simp only [DOut.ok_bind]; split <;> rfl
      | err m => rfl
      | panic m => rfl
      | timeout => rfl
  refine ⟨fun hlt => (rejects_iff G hb hid hw).2 ⟨1, by rw [kb, if_pos hlt]⟩, fun hle => ?_⟩
  have hnl : ¬ w.length < x := by omega
  refine ⟨fun o h => ?_, fun v r hr h => ?_, fun m h => ?_, fun h => ?_, fun h => ?_⟩
  · obtain ⟨k, hk⟩ := (accepts_iff G ha [] hwt).1 h
    cases k with
    | zero => cases hk
    | succ k =>
      rw [ka] at hk
      obtain ⟨⟨o', w'⟩, h1, h2⟩ := DOut.bind_eq_ok.1 hk
      cases h2
      exact (accepts_iff G hb hid hw).2 ⟨k + 1, by rw [kb, if_neg hnl, h1]; rfl⟩
  · obtain ⟨k, hk⟩ := (accepts_iff G ha [] hwt).1 h
    cases k with
    | zero => cases hk
    | succ k =>
      rw [ka] at hk
      obtain ⟨⟨o', w'⟩, h1, h2⟩ := DOut.bind_eq_ok.1 hk
      cases h2
      refine (rejects_iff G hb hid hw).2 ⟨k + 1, ?_⟩
      rw [kb, if_neg hnl, h1, DOut.ok_bind, if_pos (List.length_pos_of_ne_nil hr)]
  · obtain ⟨k, hk⟩ := (rejects_iff G ha [] hwt).1 h
    cases k with
    | zero => cases hk
    | succ k =>
      rw [ka] at hk
      refine (rejects_iff G hb hid hw).2 ⟨k + 1, ?_⟩
      rw [kb, if_neg hnl]
      revert hk
      cases decCases (fmtOf nm ext fs) A (decStruct (fmtOf nm ext fs) A ctx k) k ctx w.length u (zeroObj (fmtOf nm ext fs) a) (w.take x) <;>
        intro hk <;> cases hk
      rfl
  · obtain ⟨k, m, hk⟩ := (panics_iff G ha [] hwt).1 h
    cases k with
    | zero => cases hk
    | succ k =>
      rw [ka] at hk
      refine (panics_iff G hb hid hw).2 ⟨k + 1, m, ?_⟩
      rw [kb, if_neg hnl]
      revert hk
      cases decCases (fmtOf nm ext fs) A (decStruct (fmtOf nm ext fs) A ctx k) k ctx w.length u (zeroObj (fmtOf nm ext fs) a) (w.take x) <;>
        intro hk <;> cases hk
      rfl
  · refine (hangs_iff G hb hid hw).2 fun k => ?_
    have hk := (hangs_iff G ha [] hwt).1 h k
    cases k with
    | zero => rfl
    | succ k =>
      rw [ka] at hk
      rw [kb, if_neg hnl]
      revert hk
      cases decCases (fmtOf nm ext fs) A (decStruct (fmtOf nm ext fs) A ctx k) k ctx w.length u (zeroObj (fmtOf nm ext fs) a) (w.take x) <;>
        intro hk <;> cases hk
      rfl

/-! ## A format used in the examples below

```
context env { u8 kind; u16 size; }
struct num { u16 v IN [7, 300..400]; }
struct text { nulterm t; }
struct wrap { struct num n; }
struct pair { struct num n; @ptr at; u8 xs[..-1]; }
struct full { struct num n; @ptr at; u8 xs[..-1]; eos; }
struct free with context env { union u[env.kind] { 1: u8 a[2]; 2: struct num b; default: fail; }; }
struct lim with context env { union u[env.kind] with length env.size { 1: u8 a[2]; 2: struct num b; default: fail; }; }
struct mix with context env { u8 k; u16 ys[k]; u8 zs[]; }
```
-/

/-- Union in the examples. -/
def exChoice (c : Option LengthConstraint) : UnionMember :=
  ⟨"u", ⟨"env", "kind"⟩, c, [⟨some ⟨[⟨.literal 1, none⟩]⟩, [.field ⟨"a", .fixedArray (.int ⟨8, none⟩) (.literal 2)⟩]⟩,
    ⟨some ⟨[⟨.literal 2, none⟩]⟩, [.field ⟨"b", .base (.struct "num")⟩]⟩, ⟨none, [.fail]⟩]⟩

/-- Members in the examples. -/
def exPair : List Member :=
  [.leaf (.field ⟨"n", .base (.struct "num")⟩), .leaf (.field ⟨"at", .ptr⟩),
    .leaf (.field ⟨"xs", .varArray (.int ⟨8, none⟩) (some (.leftover (.literal 1)))⟩)]

/-- A format used in examples. -/
def exFields : List File := [{
  constants := [], pragmas := []
  contexts := [⟨"env", [⟨"kind", .base (.int ⟨8, none⟩)⟩, ⟨"size", .base (.int ⟨16, none⟩)⟩]⟩]
  structs := [
    ⟨"num", [], some [.leaf (.field ⟨"v", .base (.int ⟨16, some ⟨[⟨.literal 7, none⟩, ⟨.literal 300, some (.literal 400)⟩]⟩⟩)⟩)]⟩,
    ⟨"text", [], some [.leaf (.field ⟨"t", .nulterm⟩)]⟩,
    ⟨"wrap", [], some [.leaf (.field ⟨"n", .base (.struct "num")⟩)]⟩,
    ⟨"pair", [], some exPair⟩,
    ⟨"full", [], some (exPair ++ [.leaf .eos])⟩,
    ⟨"free", ["env"], some [.union (exChoice none)]⟩,
    ⟨"lim", ["env"], some [.union { exChoice none with length := some (.idRef ⟨"env", "size"⟩) }]⟩,
    ⟨"mix", [], some [.leaf (uF "k" 8), .leaf (.field ⟨"ys", .varArray (.int ⟨16, none⟩) (some (.idRef ⟨"", "k"⟩))⟩),
      .leaf (.field ⟨"zs", .varArray (.int ⟨8, none⟩) none⟩)]⟩] }]

/-- Context values in examples. -/
def exCtx2 : Ctx := fun c => if c = "env" then [("Kind", .num 2), ("Size", .num 3)] else []

theorem exFields_gen : Generated exNm exExt idOrder exFields (emitted exFields) exCtx2 where
  gen := marshallers_emitted (by decide +kernel)
  ok := by refine FilesOK.of_check ?_ ?_ ?_ <;> decide +kernel
  ctxOK := ctxOK_of_check (by
    intro C hC f hf _
    simp only [exFields, List.flatMap_cons, List.flatMap_nil, List.append_nil, List.mem_cons, List.not_mem_nil,
      or_false] at hC
    subst hC
    simp only [List.mem_cons, List.not_mem_nil, or_false] at hf
    rcases hf with rfl | rfl
    · exact ⟨2, by decide +kernel, by decide, by decide⟩
    · exact ⟨3, by decide +kernel, by decide, by decide⟩)

theorem exFields_ord : OrdOK (fmtOf exNm exExt exFields) := OrdOK.of_check (by decide +kernel)

/-- Parsing in the examples. -/
abbrev ExAcc (n : String) (w : Bytes) (v : Val) (r : Bytes) : Prop :=
  Accepts (emitted exFields) exExt (2 ^ 32) (exNm n) (ctxArgs (structOf exFields n) exCtx2) w [] v r
/-- Failing in the examples. -/
abbrev ExRej (n : String) (w : Bytes) (m : String) : Prop :=
  Rejects (emitted exFields) exExt (2 ^ 32) (exNm n) (ctxArgs (structOf exFields n) exCtx2) w [] m

theorem exFields_num : (fmtOf exNm exExt exFields).structs "num" = some (structOf exFields "num") := by decide +kernel
theorem exFields_text : (fmtOf exNm exExt exFields).structs "text" = some (structOf exFields "text") := by decide +kernel
theorem exFields_wrap : (fmtOf exNm exExt exFields).structs "wrap" = some (structOf exFields "wrap") := by decide +kernel
theorem exFields_pair : (fmtOf exNm exExt exFields).structs "pair" = some (structOf exFields "pair") := by decide +kernel
theorem exFields_mix : (fmtOf exNm exExt exFields).structs "mix" = some (structOf exFields "mix") := by decide +kernel
theorem exFields_lim : (fmtOf exNm exExt exFields).structs "lim" = some (structOf exFields "lim") := by decide +kernel

/-- 0x0157 = 343 is listed; 8 is not. -/
example : ExAcc "num" [1, 0x57, 9] (.obj "Num" [("V", .num 343)]) [9] := by
  have := ((int_outcome (A := 2 ^ 32) exFields_gen exFields_num (w := [1, 0x57, 9]) [] (by decide) rfl).2 (by decide)).1
    (by rintro l ⟨⟩; decide +kernel)
  rw [show bigEndian (List.take (16 / 8) [1, 0x57, 9]) = 343 by decide +kernel] at this
  exact this
example : ExRej "num" [0, 8, 9] "integer constraint violated" :=
  ((int_outcome exFields_gen exFields_num [] (by decide) rfl).2 (by decide)).2 _ rfl (by decide +kernel)
example : ExRej "num" [1] "data too short" :=
  (int_outcome exFields_gen exFields_num [] (by decide) rfl).1 (by decide)

example : ExAcc "text" [65, 66, 0, 0, 7] (.obj "Text" [("T", .str [65, 66])]) [0, 7] :=
  (nulterm_outcome exFields_gen exFields_text [] (by decide) rfl).1 [65, 66] [0, 7] rfl (by decide)
example : ExRej "text" [65, 66] "could not parse nul-term string" :=
  (nulterm_outcome exFields_gen exFields_text [] (by decide) rfl).2 (by decide)

example : ExRej "wrap" [1] "data too short" :=
  (nested_outcome exFields_gen exFields_wrap [] (by decide) exFields_num rfl).2.1 _
    ((int_outcome exFields_gen exFields_num [] (by decide) rfl).1 (by decide))

theorem exPair_accepts : ExAcc "pair" [0, 7, 5, 6, 9]
    (.obj (exNm "pair") [("N", .obj "Num" [("V", .num 7)]), ("At", .num 2), ("Xs", .slice [.num 5, .num 6])]) [9] :=
  (accepts_iff exFields_gen exFields_pair [] (by decide)).2 ⟨9, by decide +kernel⟩

/-- The struct ending in `eos` rejects this input, as one byte remains. -/
example : ExRej "full" [0, 7, 5, 6, 9] "trailing data disallowed" :=
  (eos_outcome exFields_gen (a := structOf exFields "pair") (b := structOf exFields "full") exFields_pair (by decide +kernel) rfl rfl []
    (by decide)).2.1 _ _ exPair_accepts (by decide)

example : ∃ c i, [0, 7, 5, 6, 9] = c ++ i ∧
    EncMembers (fmtOf exNm exExt exFields) (Acc exNm exExt exFields (emitted exFields) (2 ^ 32) exCtx2) exCtx2 5
      [("N", .obj "Num" [("V", .num 7)]), ("At", .num 2), ("Xs", .slice [.num 5, .num 6])]
      [.leaf (.field ⟨"n", .base (.struct "num")⟩)] [0, 7, 5, 6, 9] i ∧
    (some (.num 2) : Option Val) = some (.num c.length) :=
  ptr_offset (f := "at") exFields_gen exFields_ord exFields_pair rfl (by decide) exPair_accepts rfl

example : ∃ v k, some (.obj "Num" [("V", .num 7)]) = some v ∧ ExAcc "num" [0, 7, 5, 6, 9] v k := by
  obtain ⟨i, v, k, rfl, h1, h2, _⟩ := nested_continues (f := "n") (pre := []) exFields_gen exFields_ord exFields_pair rfl
    (by decide) exPair_accepts exFields_num rfl
  exact ⟨v, k, h1, h2⟩

example : ∃ i v k, some (.obj "Num" [("V", .num 7)]) = some v ∧ ExAcc "num" i v k := by
  obtain ⟨a, i, b, v, k, _, h1, h2, _⟩ := nested_field (f := "n") exFields_gen exFields_ord exFields_pair rfl (by decide)
    exPair_accepts exFields_num (.leaf (.head _))
  exact ⟨i, v, k, h1, h2⟩

example : ∃ a win rest c : Bytes, [0, 7, 5, 6, 9] = a ++ (win ++ rest) ++ c ∧ some 1 = some (rest.length : Int) := by
  obtain ⟨a, win, rest, c, vs, h1, _, h2, _⟩ := leftover_array_consumes (f := "xs") exFields_gen exFields_ord exFields_pair rfl
    (by decide) exPair_accepts (.leaf (.tail _ (.tail _ (.head _))))
  exact ⟨a, win, rest, c, h1, h2⟩

theorem exMix_accepts : ExAcc "mix" [2, 1, 0, 0, 1, 7, 8]
    (.obj (exNm "mix") [("K", .num 2), ("Ys", .slice [.num 256, .num 1]), ("Zs", .slice [.num 7, .num 8])]) [] :=
  (accepts_iff exFields_gen exFields_mix [] (by decide)).2 ⟨9, by decide +kernel⟩

example : ∃ a bs b : Bytes, [2, 1, 0, 0, 1, 7, 8] = a ++ bs ++ b ∧ bs.length = 1 ∧ some (.num 2) = some (Val.num (bigEndian bs)) := by
  obtain ⟨a, bs, b, h1, h2, h3, _⟩ := int_field (f := "k") (t := ⟨8, none⟩) exFields_gen exFields_ord exFields_mix rfl (by decide)
    exMix_accepts (.leaf (.head _))
  exact ⟨a, bs, b, h1, h2, h3⟩

example : ∃ vs, some (.slice [.num 256, .num 1]) = some (Val.slice vs) ∧ some 2 = some (vs.length : Int) := by
  obtain ⟨a, i, c, j, vs, _, h1, h2, _⟩ := counted_array_length (f := "ys") exFields_gen exFields_ord exFields_mix rfl (by decide)
    exMix_accepts (.leaf (.tail _ (.head _)))
  exact ⟨vs, h1, h2⟩

example : ∃ (a i c : Bytes) (vs : List Val), [2, 1, 0, 0, 1, 7, 8] = a ++ i ++ c ∧ some (.slice [.num 7, .num 8]) = some (Val.slice vs) := by
  obtain ⟨a, i, c, vs, h1, h2, _⟩ := end_array_consumes (f := "zs") exFields_gen exFields_ord exFields_mix rfl (by decide) exMix_accepts
    (.leaf (.tail _ (.tail _ (.head _))))
  exact ⟨a, i, c, vs, h1, h2⟩

/-- Member of a selected union case: `b` in the format of `Verif/GenRun`. -/
example : ∃ vs, getF [("B", .array [.obj "Point" [("X", .num 1), ("Y", .num 2)], .obj "Point" [("X", .num 3), ("Y", .num 4)]])] "B" =
    some (Val.array vs) ∧ some 2 = some (vs.length : Int) := by
  obtain ⟨a, i, c, j, vs, _, h1, h2, _⟩ := fixed_array_length (f := "b") (b := .struct "point") (k := .literal 2) exMsg_gen exMsg_ord
    exMsg_msg rfl (by decide) (exMsg_accepts [])
    (.case (.tail _ (.tail _ (.tail _ (.tail _ (.tail _ (.head _)))))) (x := 2) rfl rfl (.head _))
  exact ⟨vs, h1, h2⟩

example : ∃ a t b : Bytes, exIn = a ++ t ++ 0 :: b ∧ (0 : UInt8) ∉ t ∧ some (.str [78]) = some (Val.str t) :=
  nulterm_field (f := "name") exMsg_gen exMsg_ord exMsg_msg rfl (by decide) (exMsg_accepts [])
    (.leaf (.tail _ (.tail _ (.tail _ (.tail _ (.head _))))))

/-- The tag is 2: `b` is read, `a` is zero. -/
example : ∃ (x : Int) (a i b k : Bytes), some 2 = some x ∧ exIn = a ++ i ++ b := by
  obtain ⟨x, a, i, b, k, h1, h2, _⟩ := union_selected exMsg_gen exMsg_ord exMsg_msg rfl (by decide) (exMsg_accepts [])
    (.tail _ (.tail _ (.tail _ (.tail _ (.tail _ (.head _))))))
  exact ⟨x, a, i, b, k, h1, h2⟩

/-- The length is 3 but the selected case takes 2 bytes. -/
example : ExRej "lim" [0, 7, 5, 6, 9] "trailing data disallowed" :=
  ((union_window_outcome exFields_gen (a := structOf exFields "free") (b := structOf exFields "lim") (u := exChoice none) (x := 3)
    (by decide +kernel) exFields_lim rfl (by decide +kernel) rfl rfl (by decide) rfl (by decide) [] (by decide)).2 (by decide)).2.1
    (.obj (exNm "free") [("A", .array [.num 0, .num 0]), ("B", .obj "Num" [("V", .num 7)])]) [5] (by decide)
    ((accepts_iff exFields_gen (by decide +kernel) [] (by decide)).2 ⟨9, by decide +kernel⟩)

/-! ## Where the manual differs -/

/-- `struct a { u8 t; union u[t] { 1: u8 x; }; }`. -/
def exNoDefault : List File := one "a"
  [.leaf (uF "t" 8), .union ⟨"u", ⟨"", "t"⟩, none, [⟨some ⟨[⟨.literal 1, none⟩]⟩, [uF "x" 8]⟩]⟩]

theorem exNoDefault_gen : Generated exNm exExt idOrder exNoDefault (emitted exNoDefault) noCtx where
  gen := marshallers_emitted (by decide +kernel)
  ok := by refine FilesOK.of_check ?_ ?_ ?_ <;> decide +kernel
  ctxOK := ctxOK_of_check (by intro C hC; cases hC)

/-- The manual says a union without default behaves as one with `default: fail`. The generated code
instead accepts a tag that no case lists. -/
theorem union_no_default_accepts (r : Bytes) (hr : r.length < 2 ^ 62) :
    Accepts (emitted exNoDefault) exExt A (exNm "a") (ctxArgs (structOf exNoDefault "a") noCtx) (2 :: r) []
      (.obj "A" [("T", .num 2), ("X", .num 0)]) r := by
  refine (accepts_iff exNoDefault_gen (by decide +kernel) [] (by simp only [List.length_cons]; omega)).2 ⟨2, ?_⟩
  rfl

/-- `struct a { u8 n; union u[n] with length n { default: u8 x; @ptr p; }; }`. -/
def exPtr : List File := one "a"
  [.leaf (uF "n" 8), .union ⟨"u", ⟨"", "n"⟩, some (.idRef ⟨"", "n"⟩), [⟨none, [uF "x" 8, .field ⟨"p", .ptr⟩]⟩]⟩]

theorem exPtr_gen : Generated exNm exExt idOrder exPtr (emitted exPtr) noCtx where
  gen := marshallers_emitted (by decide +kernel)
  ok := by refine FilesOK.of_check ?_ ?_ ?_ <;> decide +kernel
  ctxOK := ctxOK_of_check (by intro C hC; cases hC)

/-- Inside a union with a length a `@ptr` does not hold the offset: here `p` comes after two bytes, but
is 4, the length of the whole input. -/
theorem ptr_in_window_wrong :
    Accepts (emitted exPtr) exExt (2 ^ 32) (exNm "a") (ctxArgs (structOf exPtr "a") noCtx) [1, 7, 9, 9] []
      (.obj "A" [("N", .num 1), ("X", .num 7), ("P", .num 4)]) [9, 9] :=
  (accepts_iff exPtr_gen (by decide +kernel) [] (by decide)).2 ⟨2, by decide +kernel⟩

example : ∃ a win b : Bytes, [1, 7, 9, 9] = a ++ win ++ b ∧ some 1 = some (win.length : Int) := by
  obtain ⟨a, win, b, h1, h2, _⟩ := union_window exPtr_gen (OrdOK.of_check (by decide +kernel)) (n := "a") (s := structOf exPtr "a")
    (by decide +kernel) rfl (by decide) ptr_in_window_wrong (.tail _ (.head _)) rfl
  exact ⟨a, win, b, h1, h2 _ rfl⟩

end Verif.Props
