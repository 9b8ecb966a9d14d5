import Verif.TvAct
/-!
# Vectors as encodings: what holds of the bytes and store of a vector
-/
set_option linter.unusedVariables false
namespace Verif.Tv
open Verif Verif.Ast Verif.Inspect Verif.Intervals Verif.Go Verif.Spec Verif.Wire

/-- Context values are as recorded. -/
def Sat (Γ : Fmt) (ctx : Ctx) (σ : CEnv) : Prop :=
  ∀ c k x, c ≠ "" → σ c k = some x → getF (ctx c) (Γ.nm k) = some (.num (asField x))

/-- The record agrees with what is recorded for these names. -/
def Sees (Γ : Fmt) (σ : CEnv) (o : Fields) (ns : List String) : Prop :=
  ∀ k ∈ ns, ∀ x, σ "" k = some x → getF o (Γ.nm k) = some (.num (asField x))

/-- The record has these values. -/
def Has (Γ : Fmt) (o : Fields) (q : String → Val) (fs : List Field) : Prop :=
  ∀ f ∈ fs, getF o (Γ.nm f.name) = some (q f.name)

/-- Global entries, and local ones with names in `p`, are kept. -/
structure Ext (p : List String) (σ σ' : CEnv) : Prop where
  glob : ∀ c k x, c ≠ "" → σ c k = some x → σ' c k = some x
  loc : ∀ k ∈ p, ∀ x, σ "" k = some x → σ' "" k = some x

theorem Ext.of_sub {p : List String} {σ σ' : CEnv} (h : ∀ c k x, σ c k = some x → σ' c k = some x) : Ext p σ σ' :=
  ⟨fun c k x _ => h c k x, fun k _ x => h "" k x⟩

theorem Ext.trans {p : List String} {σ σ' σ'' : CEnv} (h : Ext p σ σ') (h' : Ext p σ' σ'') : Ext p σ σ'' :=
  ⟨fun c k x hc hx => h'.glob c k x hc (h.glob c k x hc hx), fun k hk x hx => h'.loc k hk x (h.loc k hk x hx)⟩

theorem Ext.sub {p p' : List String} {σ σ' : CEnv} (h : Ext p σ σ') (hp : ∀ k ∈ p', k ∈ p) : Ext p' σ σ' :=
  ⟨h.glob, fun k hk => h.loc k (hp k hk)⟩

theorem Ext.grow {K : String → Option Int} {s : Struct} {p : List String} {σ σ' σ'' : CEnv} (h : Ext p σ σ')
    (g : Grow K s σ' σ'') : Ext p σ σ'' := h.trans (.of_sub g.sub)

theorem Sat.anti {Γ : Fmt} {ctx : Ctx} {σ σ' : CEnv} (h : Sat Γ ctx σ')
    (g : ∀ c k x, c ≠ "" → σ c k = some x → σ' c k = some x) : Sat Γ ctx σ :=
  fun c k x hc hx => h c k x hc (g c k x hc hx)

theorem Sees.anti {Γ : Fmt} {o : Fields} {σ σ' : CEnv} {ns : List String} (h : Sees Γ σ' o ns)
    (g : ∀ k ∈ ns, ∀ x, σ "" k = some x → σ' "" k = some x) : Sees Γ σ o ns :=
  fun k hk x hx => h k hk x (g k hk x hx)

theorem Sees.sub {Γ : Fmt} {o : Fields} {σ : CEnv} {ns ns' : List String} (h : Sees Γ σ o ns)
    (hs : ∀ k ∈ ns', k ∈ ns) : Sees Γ σ o ns' := fun k hk => h k (hs k hk)

/-- The parameters of the argument: the format, the slice bound, the byte bound, the closed structs, context
values, and the relation for nested structs. -/
structure Par where
  Γ : Fmt
  A : Nat
  B : Nat
  C : String → Prop
  ctx : Ctx
  P : SRel

variable (π : Par) (s : Struct)

/-- The bytes are an encoding of the member, in every record with suitable values. -/
def MemberGood (p : List String) (m : Member) (σ0 : CEnv) (d : Bytes) (σ : CEnv) : Prop :=
  Sat π.Γ π.ctx σ → ∀ tail, (tail ≠ [] → MemberClosed π.C m) → ∀ D, ∃ q : String → Val,
    (∀ f ∈ memberFields m, Fits π.A (q f.name)) ∧
    (∀ k ∈ memberNames m, k ∈ p → ∀ x, σ0 "" k = some x → q k = .num (asField x)) ∧
    ∀ o, Has π.Γ o q (memberFields m) → Sees π.Γ σ o (memberNeeds m) →
      EncMember π.Γ π.P π.ctx D o m (d ++ tail) tail

/-- What an action for a member followed by `p` establishes. -/
def MemberQ (p : List String) (m : Member) (σ0 : CEnv) (d : Bytes) (σ : CEnv) : Prop :=
  d.length < π.B → MapOK π.Γ.K s σ ∧ Ext p σ0 σ ∧ MemberGood π p m σ0 d σ

/-- The bytes are an encoding of the members, in every record with suitable values. -/
def MembersGood (ms : List Member) (d : Bytes) (σ : CEnv) : Prop :=
  Sat π.Γ π.ctx σ → ∀ tail, (tail ≠ [] → ∀ m ∈ ms, MemberClosed π.C m) → ∀ D, ∃ q : String → Val,
    (∀ f ∈ fieldsOf ms, Fits π.A (q f.name)) ∧
    ∀ o, Has π.Γ o q (fieldsOf ms) → Sees π.Γ σ o (needs ms) →
      EncMembers π.Γ π.P π.ctx D o ms (d ++ tail) tail

/-- What holds of a vector for the members, starting from store `σi` and keeping names `p`. -/
def MembersR (p : List String) (σi : CEnv) (ms : List Member) (σ : CEnv) (d : Bytes) : Prop :=
  d.length < π.B → MapOK π.Γ.K s σ ∧ Ext p σi σ ∧ MembersGood π ms d σ

variable {π s}

theorem MembersGood.mono {ms : List Member} {d : Bytes} {σ σ' : CEnv} (h : MembersGood π ms d σ)
    (hs : ∀ c k x, σ c k = some x → σ' c k = some x) : MembersGood π ms d σ' := by
  intro hsat tail ht D
  obtain ⟨q, h1, h2⟩ := h (hsat.anti fun c k x _ => hs c k x) tail ht D
  exact ⟨q, h1, fun o ho hse => h2 o ho (hse.anti fun k _ x => hs "" k x)⟩

theorem MembersR.mono {p : List String} {σi : CEnv} {ms : List Member} : Mono π.Γ.K s (MembersR π s p σi ms) := by
  intro σ σ' d g h hd
  obtain ⟨h1, h2, h3⟩ := h hd
  exact ⟨h1.grow g, h2.grow g, h3.mono g.sub⟩

theorem fieldsOf_cons (m : Member) (ms : List Member) : fieldsOf (m :: ms) = memberFields m ++ fieldsOf ms := by
  simp [fieldsOf]

/-- The bytes are an encoding of the members, in every record with suitable values of which `T` holds. -/
def MembersGoodT (π : Par) (T : (String → Val) → Prop) (ms : List Member) (d : Bytes) (σ : CEnv) : Prop :=
  Sat π.Γ π.ctx σ → ∀ tail, (tail ≠ [] → ∀ m ∈ ms, MemberClosed π.C m) → ∀ D, ∃ q : String → Val,
    (∀ f ∈ fieldsOf ms, Fits π.A (q f.name)) ∧ T q ∧
    ∀ o, Has π.Γ o q (fieldsOf ms) → Sees π.Γ σ o (needs ms) →
      EncMembers π.Γ π.P π.ctx D o ms (d ++ tail) tail

theorem MembersGoodT.mono {T : (String → Val) → Prop} {ms : List Member} {d : Bytes} {σ σ' : CEnv}
    (h : MembersGoodT π T ms d σ) (hs : ∀ c k x, σ c k = some x → σ' c k = some x) : MembersGoodT π T ms d σ' := by
  intro hsat tail ht D
  obtain ⟨q, h1, h2, h3⟩ := h (hsat.anti fun c k x _ => hs c k x) tail ht D
  exact ⟨q, h1, h2, fun o ho hse => h3 o ho (hse.anti fun k _ x => hs "" k x)⟩

theorem MembersGood.withT {T : (String → Val) → Prop} {ms : List Member} {d : Bytes} {σ : CEnv}
    (h : MembersGood π ms d σ) (hT : ∀ q, T q) : MembersGoodT π T ms d σ := by
  intro hsat tail ht D
  obtain ⟨q, h1, h2⟩ := h hsat tail ht D
  exact ⟨q, h1, hT q, h2⟩

theorem MembersGoodT.good {T : (String → Val) → Prop} {ms : List Member} {d : Bytes} {σ : CEnv}
    (h : MembersGoodT π T ms d σ) : MembersGood π ms d σ := by
  intro hsat tail ht D
  obtain ⟨q, h1, _, h2⟩ := h hsat tail ht D
  exact ⟨q, h1, h2⟩

/-- One more member in front. -/
theorem MembersGoodT.step {p : List String} {T0 T : (String → Val) → Prop} {m : Member} {ms : List Member}
    (hn : ((fieldsOf (m :: ms)).map (·.name)).Nodup) (hc : ms ≠ [] → MemberClosed π.C m)
    {σ0 σ : CEnv} {d1 d2 : Bytes} (a3 : MembersGoodT π T0 ms d2 σ0) (b2 : Ext (needs ms ++ p) σ0 σ)
    (b3 : MemberGood π (needs ms ++ p) m σ0 d1 σ)
    (hT : ∀ q1 q2 : String → Val, (∀ k ∈ memberNames m, k ∈ needs ms ++ p → ∀ x, σ0 "" k = some x →
      q1 k = .num (asField x)) → T0 q2 → T (fun k => if k ∈ memberNames m then q1 k else q2 k)) :
    MembersGoodT π T (m :: ms) (d1 ++ d2) σ := by
  intro hsat tail ht D
  have hsat0 : Sat π.Γ π.ctx σ0 := hsat.anti b2.glob
  obtain ⟨q2, f2, t2, e2⟩ := a3 hsat0 tail (fun h m' hm' => ht h m' (List.mem_cons_of_mem _ hm')) D
  have hcl : d2 ++ tail ≠ [] → MemberClosed π.C m := by
    intro hne
    by_cases hms : ms = []
    · subst hms
      have := e2 [] (by simp [Has, fieldsOf]) (by simp [Sees, needs])
      simp only [EncMembers] at this
      rw [this] at hne
      exact ht hne m List.mem_cons_self
    · exact hc hms
  obtain ⟨q1, f1, g1, e1⟩ := b3 hsat (d2 ++ tail) hcl D
  rw [fieldsOf_cons, List.map_append, List.nodup_append] at hn
  have hdis : ∀ f ∈ fieldsOf ms, f.name ∉ memberNames m := by
    intro f hf hm
    exact hn.2.2 _ hm _ (List.mem_map.2 ⟨f, hf, rfl⟩) rfl
  refine ⟨fun k => if k ∈ memberNames m then q1 k else q2 k, ?_, hT q1 q2 g1 t2, ?_⟩
  · intro f hf
    rw [fieldsOf_cons] at hf
    rcases List.mem_append.1 hf with hf | hf
    · have : f.name ∈ memberNames m := List.mem_map.2 ⟨f, hf, rfl⟩
      simp only [this, if_true]; exact f1 f hf
    · simp only [hdis f hf, if_false]; exact f2 f hf
  · intro o ho hse
    have ho1 : Has π.Γ o q1 (memberFields m) := by
      intro f hf
      have := ho f (by rw [fieldsOf_cons]; exact List.mem_append_left _ hf)
      have hm : f.name ∈ memberNames m := List.mem_map.2 ⟨f, hf, rfl⟩
      simpa only [hm, if_true] using this
    have ho2 : Has π.Γ o q2 (fieldsOf ms) := by
      intro f hf
      have := ho f (by rw [fieldsOf_cons]; exact List.mem_append_right _ hf)
      simpa only [hdis f hf, if_false] using this
    have hs1 : Sees π.Γ σ o (memberNeeds m) := hse.sub fun k hk => List.mem_append_left _ hk
    have hs2 : Sees π.Γ σ0 o (needs ms) := by
      intro k hk x hx
      by_cases hm : k ∈ memberNames m
      · have := g1 k hm (List.mem_append_left _ hk) x hx
        obtain ⟨f, hf, rfl⟩ := List.mem_map.1 hm
        rw [ho1 f hf, this]
      · refine hse k (List.mem_append_right _ (List.mem_filter.2 ⟨hk, by simpa using hm⟩)) x ?_
        exact b2.loc k (List.mem_append_left _ hk) x hx
    refine ⟨d2 ++ tail, ?_, e2 o ho2 hs2⟩
    rw [List.append_assoc]
    exact e1 o ho1 hs1

theorem MembersR.step {p : List String} {σi : CEnv} {m : Member} {ms : List Member}
    (hn : ((fieldsOf (m :: ms)).map (·.name)).Nodup) (hc : ms ≠ [] → MemberClosed π.C m)
    {σ0 σ : CEnv} {d1 d2 : Bytes} (h0 : MembersR π s p σi ms σ0 d2)
    (h1 : MapOK π.Γ.K s σ0 → MemberQ π s (needs ms ++ p) m σ0 d1 σ) :
    MembersR π s p σi (m :: ms) σ (d1 ++ d2) := by
  intro hd
  simp only [List.length_append] at hd
  obtain ⟨a1, a2, a3⟩ := h0 (by omega)
  obtain ⟨b1, b2, b3⟩ := h1 a1 (by omega)
  refine ⟨b1, a2.trans (b2.sub fun k hk => List.mem_append_right _ hk), ?_⟩
  exact (MembersGoodT.step hn hc (a3.withT (T := fun _ => True) fun _ => trivial) b2 b3 (T := fun _ => True)
    fun _ _ _ _ => trivial).good

/-! ## Leaves as members -/

theorem encLeaves_iff {Γ : Fmt} {P : SRel} {ctx : Ctx} {D : Nat} {o : Fields} : ∀ {ls : List Leaf} {i r : Bytes},
    EncLeaves Γ P ctx D o ls i r ↔ EncMembers Γ P ctx D o (ls.map .leaf) i r
  | [], _, _ => Iff.rfl
  | l :: ls, i, r => by
    simp only [EncLeaves, List.map_cons, EncMembers, EncMember, encLeaves_iff (ls := ls)]

theorem fieldsOf_leaves (ls : List Leaf) : fieldsOf (ls.map .leaf) = leafFields ls := by
  induction ls with
  | nil => rfl
  | cons l ls ih =>
    rw [List.map_cons, fieldsOf_cons, ih]
    simp only [memberFields, leafFields]
    cases l <;> simp

theorem needs_leaves (ls : List Leaf) : needs (ls.map .leaf) = needLeaves ls := by
  induction ls with
  | nil => rfl
  | cons l ls ih => simp only [List.map_cons, needs, needLeaves, ih, memberNeeds]; rfl

theorem MemberQ.mono {p : List String} {m : Member} {σ0 : CEnv} :
    Mono π.Γ.K s (fun σ d => MemberQ π s p m σ0 d σ) := by
  intro σ σ' d g h hd
  obtain ⟨h1, h2, h3⟩ := h hd
  refine ⟨h1.grow g, h2.grow g, ?_⟩
  intro hsat tail ht D
  obtain ⟨q, a, b, c⟩ := h3 (hsat.anti fun c k x _ => g.sub c k x) tail ht D
  exact ⟨q, a, b, fun o ho hse => c o ho (hse.anti fun k _ x => g.sub "" k x)⟩

end Verif.Tv
