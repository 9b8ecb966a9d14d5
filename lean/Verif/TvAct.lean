import Verif.TvHeap
/-!
# Running members over vectors
-/
set_option linter.unusedVariables false
namespace Verif.Tv
open Verif Verif.Ast Verif.Inspect Verif.Intervals Verif.Go Verif.Spec Verif.Wire

variable {E : Env} {K : String → Option Int} {s : Struct} {N : Nat}

/-- The current store, and those of the vectors, are right. -/
def MapsOK (K : String → Option Int) (s : Struct) (st : St E) (vs : List Vec) : Prop :=
  MapOK K s (st.env st.cur) ∧ ∀ v ∈ vs, MapOK K s (st.env v.cst)

/-- Where the bytes of vectors are. -/
abbrev arrsOf (vs : List Vec) : List Nat := vs.map (·.data.arr)

/-- What an action of struct `s` does: vectors in new arrays, of which `Q` holds (given the current store,
the bytes, and the vector's store). If `one`, at most one. -/
structure After (K : String → Option Int) (s : Struct) (N : Nat) (one : Prop)
    (Q : CEnv → Bytes → CEnv → Prop) (st st' : St E) (vs : List Vec) : Prop where
  inv : Inv N st'
  frame : Frame K s N st st'
  nodup : (arrsOf vs).Nodup
  vec : ∀ v ∈ vs, st.arrs.length ≤ v.data.arr ∧ Live N st' v
  sem : MapOK K s (st.env st.cur) → ∀ v ∈ vs, Q (st.env st.cur) (st'.read v.data) (st'.env v.cst)
  one_len : one → vs.length ≤ 1
  one_ok : one → MapOK K s (st.env st.cur) → MapsOK K s st' vs

/-- Actions that do that. -/
def Act (K : String → Option Int) (s : Struct) (N : Nat) (one : Prop)
    (Q : CEnv → Bytes → CEnv → Prop) (x : TM E (List Vec)) : Prop :=
  ∀ st vs st', Inv N st → x st = .ok (vs, st') → After K s N one Q st st' vs

/-- `Q` is kept as the vector's store grows. -/
def Mono (K : String → Option Int) (s : Struct) (Q : CEnv → Bytes → Prop) : Prop :=
  ∀ σ σ' d, Grow K s σ σ' → Q σ d → Q σ' d

theorem appendAll_ok {M : Nat} {d : Slice} : ∀ {mvs : List Vec} {st st' : St E} {ext : List Vec},
    SLive st d → d.arr < M → M ≤ st.arrs.length → (∀ v ∈ mvs, M ≤ v.data.arr ∧ SLive st v.data) →
    (arrsOf mvs).Nodup → appendAll d mvs st = .ok (ext, st') →
    st'.maps = st.maps ∧ st'.cur = st.cur ∧ st.arrs.length ≤ st'.arrs.length ∧
    (∀ a, a < st.arrs.length → a ∉ arrsOf mvs → st'.arrs[a]? = st.arrs[a]?) ∧
    (arrsOf ext).Nodup ∧ ext.length = mvs.length ∧
    (∀ e ∈ ext, SLive st' e.data ∧ M ≤ e.data.arr ∧
      (e.data.arr ∈ arrsOf mvs ∨ st.arrs.length ≤ e.data.arr) ∧
      ∃ v ∈ mvs, e.cst = v.cst ∧ st'.read e.data = st.read v.data ++ st.read d) ∧
    ∀ v ∈ mvs, ∃ e ∈ ext, e.cst = v.cst ∧ st'.read e.data = st.read v.data ++ st.read d := by
  intro mvs
  induction mvs with
  | nil =>
    intro st st' ext _ _ _ _ _ h
    obtain ⟨rfl, rfl⟩ := pure_ok h
    exact ⟨rfl, rfl, Nat.le_refl _, fun _ _ _ => rfl, by simp [arrsOf], rfl, by simp, by simp⟩
  | cons mv mvs ih =>
    intro st st' ext hd hdM hM hv hn h
    simp only [appendAll] at h
    obtain ⟨bs, st0, h0, ha⟩ := bind_ok h
    clear h
    simp only [getSlice, Out.ok.injEq, Prod.mk.injEq] at h0
    obtain ⟨rfl, rfl⟩ := h0
    obtain ⟨sl, st1, h1, hb⟩ := bind_ok ha
    clear ha
    obtain ⟨rest, st2, h2, hc⟩ := bind_ok hb
    clear hb
    obtain ⟨rfl, rfl⟩ := pure_ok hc
    clear hc
    obtain ⟨hmv1, hmv2⟩ := hv mv List.mem_cons_self
    have hA := appendSlice_ok hmv2 h1
    simp only [arrsOf, List.map_cons, List.nodup_cons] at hn
    have hd1 : SLive st1 d := hd.of_eq hA.le (hA.old _ hd.1 (by omega))
    have hrd : st1.read d = st.read d := read_eq (hA.old _ hd.1 (by omega))
    have hne : ∀ v ∈ mvs, v.data.arr ≠ mv.data.arr := fun v hv' e =>
      hn.1 (e ▸ List.mem_map.2 ⟨v, hv', rfl⟩)
    have hv1 : ∀ v ∈ mvs, M ≤ v.data.arr ∧ SLive st1 v.data := by
      intro v hv'
      obtain ⟨a, b⟩ := hv v (List.mem_cons_of_mem _ hv')
      exact ⟨a, b.of_eq hA.le (hA.old _ b.1 (hne v hv'))⟩
    obtain ⟨e1, e2, e3, e4, e5, e6, e7, e8⟩ := ih hd1 hdM (Nat.le_trans hM hA.le) hv1 hn.2 h2
    have hle := hA.le
    have hsl1 : sl.arr < st1.arrs.length := hA.live.1
    have hsl2 : sl.arr ∉ arrsOf mvs := by
      rcases hA.arr with e | e
      · rw [e]; exact hn.1
      · rw [e]; intro hm
        obtain ⟨v, hv', e'⟩ := List.mem_map.1 hm
        have := (hv v (List.mem_cons_of_mem _ hv')).2.1
        omega
    have hhead : st'.read sl = st.read mv.data ++ st.read d := by rw [read_eq (e4 _ hsl1 hsl2), hA.read]
    have hread : ∀ v ∈ mvs, st1.read v.data = st.read v.data := fun v hv' =>
      read_eq (hA.old _ (hv v (List.mem_cons_of_mem _ hv')).2.1 (hne v hv'))
    refine ⟨e1.trans hA.maps, e2.trans hA.cur, Nat.le_trans hA.le e3, ?_, ?_, by simp [e6], ?_, ?_⟩
    · intro a ha hna
      simp only [arrsOf, List.map_cons, List.mem_cons, not_or] at hna
      rw [e4 a (by omega) hna.2, hA.old a ha hna.1]
    · simp only [arrsOf, List.map_cons, List.nodup_cons]
      refine ⟨?_, e5⟩
      intro hm
      obtain ⟨e, he, he'⟩ := List.mem_map.1 hm
      rcases (e7 e he).2.2.1 with h' | h'
      · rw [he'] at h'; exact hsl2 h'
      · omega
    · intro e he
      rcases List.mem_cons.1 he with rfl | he
      · refine ⟨hA.live.of_eq e3 (e4 _ hsl1 hsl2), ?_, ?_, mv, List.mem_cons_self, rfl, ?_⟩
        · rcases hA.arr with e | e <;> simp only [e] <;> omega
        · rcases hA.arr with e | e
          · left; simp only [arrsOf, List.map_cons, e]; exact List.mem_cons_self
          · right; simp only [e]; omega
        · exact hhead
      · obtain ⟨a1, a2, a3, v, hv', a4, a5⟩ := e7 e he
        refine ⟨a1, a2, ?_, v, List.mem_cons_of_mem _ hv', a4, ?_⟩
        · rcases a3 with a3 | a3
          · left; simp only [arrsOf, List.map_cons]; exact List.mem_cons_of_mem _ a3
          · right; omega
        · rw [a5, hrd, hread v hv']
    · intro v hv'
      rcases List.mem_cons.1 hv' with rfl | hv'
      · exact ⟨_, List.mem_cons_self, rfl, hhead⟩
      · obtain ⟨e, he, a4, a5⟩ := e8 v hv'
        exact ⟨e, List.mem_cons_of_mem _ he, a4, by rw [a5, hrd, hread v hv']⟩

theorem extendAll_ok {one : Prop} {Q : CEnv → Bytes → CEnv → Prop} {act : TM E (List Vec)}
    (hact : Act K s N one Q act) {R0 R1 : CEnv → Bytes → Prop} (m0 : Mono K s R0) (m1 : Mono K s R1)
    (step : ∀ σ0 d2 d1 σ, R0 σ0 d2 → (MapOK K s σ0 → Q σ0 d1 σ) → R1 σ (d1 ++ d2)) :
    ∀ {vs : List Vec} {st st' : St E} {ext : List Vec}, Inv N st →
    (∀ v ∈ vs, Live N st v ∧ R0 (st.env v.cst) (st.read v.data)) →
    extendAll act vs st = .ok (ext, st') →
    Inv N st' ∧ Frame K s N st st' ∧ (arrsOf ext).Nodup ∧
    (∀ e ∈ ext, st.arrs.length ≤ e.data.arr ∧ Live N st' e ∧ R1 (st'.env e.cst) (st'.read e.data)) ∧
    (one → ext.length ≤ vs.length) ∧ (one → MapsOK K s st vs → MapsOK K s st' ext) := by
  intro vs
  induction vs with
  | nil =>
    intro st st' ext hi _ h
    obtain ⟨rfl, rfl⟩ := pure_ok h
    exact ⟨hi, .refl _ _, by simp [arrsOf], by simp, fun _ => Nat.le_refl _, fun _ h => h⟩
  | cons v vs ih =>
    intro st st' ext hi hv h
    simp only [extendAll] at h
    obtain ⟨u, st0, h0, ha⟩ := bind_ok h
    clear h
    simp only [setCur, Out.ok.injEq, Prod.mk.injEq, true_and] at h0
    obtain ⟨mvs, st1, h1, hb⟩ := bind_ok ha
    clear ha
    obtain ⟨ex, st2, h2, hc⟩ := bind_ok hb
    clear hb
    obtain ⟨rest, st3, h3, hd⟩ := bind_ok hc
    clear hc
    obtain ⟨rfl, rfl⟩ := pure_ok hd
    clear hd
    obtain ⟨hlv, hR⟩ := hv v List.mem_cons_self
    have hi0 : Inv N st0 := by subst h0; exact ⟨hi.wf, hlv.ge, hlv.lt⟩
    have hf0 : Frame K s N st st0 := by subst h0; exact ⟨Nat.le_refl _, fun _ _ => rfl, Nat.le_refl _, fun _ _ _ => rfl, fun _ _ _ => .refl _⟩
    have A := hact st0 mvs st1 hi0 h1
    have hM : st0.arrs.length = st.arrs.length := by rw [← h0]
    have hcur0 : st0.cur = v.cst := by rw [← h0]
    have henv0 : st0.env v.cst = st.env v.cst := by subst h0; rfl
    have hread0 : st0.read v.data = st.read v.data := by subst h0; rfl
    have hlv1 : Live N st1 v := (hlv.frame hf0).frame A.frame
    have hdarr : v.data.arr < st0.arrs.length := by rw [hM]; exact hlv.data.1
    obtain ⟨p1, p2, p3, p4, p5, p6, p7, p8⟩ := appendAll_ok (M := st0.arrs.length) hlv1.data hdarr
      A.frame.arrs_le (fun w hw => ⟨(A.vec w hw).1, (A.vec w hw).2.data⟩) A.nodup h2
    have hf2 : Frame K s N st st2 := by
      have f1 : Frame K s N st st1 := hf0.trans A.frame
      refine ⟨Nat.le_trans f1.arrs_le p3, ?_, ?_, ?_, ?_⟩
      · intro a ha
        rw [p4 a (Nat.lt_of_lt_of_le ha f1.arrs_le), f1.arrs a ha]
        intro hm
        obtain ⟨w, hw, e⟩ := List.mem_map.1 hm
        have := (A.vec w hw).1
        omega
      · rw [p1]; exact f1.maps_le
      · intro r hr hl; rw [p1]; exact f1.low r hr hl
      · intro r hr hl
        have := f1.high r hr hl
        rw [show st2.env r = st1.env r from env_eq (by rw [p1])]; exact this
    have hi2 : Inv N st2 := by
      refine ⟨?_, by rw [p2]; exact A.inv.cur_ge, by rw [p1, p2]; exact A.inv.cur_lt⟩
      intro c hc; rw [p1] at hc; exact A.inv.wf c hc
    have henv2 : ∀ r, st2.env r = st1.env r := fun r => env_eq (by rw [p1])
    have hv2 : ∀ w ∈ vs, Live N st2 w ∧ R0 (st2.env w.cst) (st2.read w.data) := by
      intro w hw
      obtain ⟨a, b⟩ := hv w (List.mem_cons_of_mem _ hw)
      refine ⟨a.frame hf2, ?_⟩
      rw [hf2.read a.data]
      exact m0 _ _ _ (hf2.grow a) b
    obtain ⟨q1, q2, q3, q4, q5, q6⟩ := ih hi2 hv2 h3
    have hex : ∀ e ∈ ex, st.arrs.length ≤ e.data.arr ∧ Live N st2 e ∧ R1 (st2.env e.cst) (st2.read e.data) := by
      intro e he
      obtain ⟨a1, a2, a3, w, hw, a4, a5⟩ := p7 e he
      have hwl := (A.vec w hw).2
      refine ⟨by omega, ⟨a1, by rw [a4]; exact hwl.ge, by rw [a4, p1]; exact hwl.lt⟩, ?_⟩
      rw [a5, a4, henv2, A.frame.read (hlv.frame hf0).data, hread0]
      refine step (st.env v.cst) _ _ _ hR (fun hm => ?_)
      have := A.sem (by rw [hcur0, henv0]; exact hm) w hw
      rw [hcur0, henv0] at this
      exact this
    refine ⟨q1, hf2.trans q2, ?_, ?_, ?_, ?_⟩
    · simp only [arrsOf, List.map_append]
      refine List.nodup_append.2 ⟨p5, q3, ?_⟩
      intro a ha b hb e
      subst e
      obtain ⟨w, hw, e⟩ := List.mem_map.1 ha
      obtain ⟨w', hw', e'⟩ := List.mem_map.1 hb
      have h1 := (hex w hw).2.1.data.1
      have h2 := (q4 w' hw').1
      omega
    · intro e he
      rcases List.mem_append.1 he with he | he
      · obtain ⟨a1, a2, a3⟩ := hex e he
        refine ⟨a1, a2.frame q2, ?_⟩
        rw [q2.read a2.data]
        exact m1 _ _ _ (q2.grow a2) a3
      · obtain ⟨a1, a2, a3⟩ := q4 e he
        exact ⟨Nat.le_trans hf2.arrs_le a1, a2, a3⟩
    · intro ho
      have h1 := A.one_len ho
      have h2 := q5 ho
      simp only [List.length_append, List.length_cons]
      omega
    · intro ho hm
      have h1 := A.one_ok ho (by rw [hcur0, henv0]; exact hm.2 v List.mem_cons_self)
      have h2 : MapsOK K s st2 vs := by
        refine ⟨by rw [henv2, p2]; exact h1.1, fun w hw => ?_⟩
        have hlw := (hv w (List.mem_cons_of_mem _ hw)).1
        exact (hm.2 w (List.mem_cons_of_mem _ hw)).grow (hf2.grow hlw)
      have h3 := q6 ho h2
      refine ⟨h3.1, fun e he => ?_⟩
      rcases List.mem_append.1 he with he | he
      · obtain ⟨a1, a2, a3⟩ := hex e he
        obtain ⟨_, _, _, w, hw, a4, _⟩ := p7 e he
        refine MapOK.grow ?_ (q2.grow a2)
        rw [a4, henv2]
        exact h1.2 w hw
      · exact h3.2 e he

theorem select_ok (hsel : Selects E) {vs ws : List Vec} {st st' : St E} (h : select vs st = .ok (ws, st')) :
    ws.Subperm vs ∧ st' = { st with calls := st.calls + 1 } := by
  simp only [select, Out.ok.injEq, Prod.mk.injEq] at h
  obtain ⟨rfl, rfl⟩ := h
  exact ⟨hsel _ _, rfl⟩

theorem Frame.calls {st st' : St E} {n : Nat} (h : Frame K s N st st') :
    Frame K s N st { st' with calls := n } := ⟨h.arrs_le, h.arrs, h.maps_le, h.low, h.high⟩

theorem Subperm.arrs_nodup {vs ws : List Vec} (h : ws.Subperm vs) (hn : (arrsOf vs).Nodup) : (arrsOf ws).Nodup := by
  obtain ⟨l, hl, hs⟩ := h
  have h1 : (arrsOf l).Nodup := hn.sublist (hs.map _)
  exact (hl.map _).nodup_iff.1 h1

theorem membersLoop_ok {β : Type} (hsel : Selects E) {one : Prop} {f : β → TM E (List Vec)}
    {R : List β → CEnv → Bytes → Prop} (hmono : ∀ ms, Mono K s (R ms)) {all : List β}
    (H : ∀ pre m post, pre ++ m :: post = all → ∃ Q, Act K s N one Q (f m) ∧
      ∀ σ0 d2 d1 σ, R post σ0 d2 → (MapOK K s σ0 → Q σ0 d1 σ) → R (m :: post) σ (d1 ++ d2)) {M : Nat} :
    ∀ {rev ms0 : List β} {vs : List Vec} {st st' : St E} {ws : List Vec}, rev.reverse ++ ms0 = all →
    Inv N st → M ≤ st.arrs.length → (arrsOf vs).Nodup →
    (∀ v ∈ vs, M ≤ v.data.arr ∧ Live N st v ∧ R ms0 (st.env v.cst) (st.read v.data)) →
    membersLoop f rev vs st = .ok (ws, st') →
    Inv N st' ∧ Frame K s N st st' ∧ (arrsOf ws).Nodup ∧
    (∀ v ∈ ws, M ≤ v.data.arr ∧ Live N st' v ∧ R all (st'.env v.cst) (st'.read v.data)) ∧
    (one → vs.length ≤ 1 → ws.length ≤ 1) ∧ (one → MapsOK K s st vs → MapsOK K s st' ws) := by
  intro rev
  induction rev with
  | nil =>
    intro ms0 vs st st' ws e hi hM hn hv h
    obtain ⟨rfl, rfl⟩ := pure_ok h
    simp only [List.reverse_nil, List.nil_append] at e
    subst e
    exact ⟨hi, .refl _ _, hn, hv, fun _ h => h, fun _ h => h⟩
  | cons m rev ih =>
    intro ms0 vs st st' ws e hi hM hn hv h
    simp only [membersLoop] at h
    obtain ⟨ext, st1, h1, ha⟩ := bind_ok h
    clear h
    obtain ⟨sel, st2, h2, hb⟩ := bind_ok ha
    clear ha
    have e' : rev.reverse ++ (m :: ms0) = all := by rw [← e]; simp
    obtain ⟨Q, hQ, step⟩ := H _ m ms0 e'
    obtain ⟨p1, p2, p3, p4, p5, p6⟩ := extendAll_ok hQ (hmono ms0) (hmono (m :: ms0)) step hi
      (fun v hv' => (hv v hv').2) h1
    obtain ⟨hsp, rfl⟩ := select_ok hsel h2
    have hi2 : Inv N ({ st1 with calls := st1.calls + 1 } : St E) := ⟨p1.wf, p1.cur_ge, p1.cur_lt⟩
    obtain ⟨q1, q2, q3, q4, q5, q6⟩ := ih e' hi2 (Nat.le_trans hM p2.arrs_le) (Subperm.arrs_nodup hsp p3)
      (fun v hv' => by
        obtain ⟨a1, a2, a3⟩ := p4 v (hsp.subset hv')
        exact ⟨Nat.le_trans hM a1, ⟨a2.data, a2.ge, a2.lt⟩, a3⟩) hb
    refine ⟨q1, p2.calls.trans q2, q3, q4, ?_, ?_⟩
    · intro ho hl
      refine q5 ho ?_
      have := p5 ho
      have := hsp.length_le
      omega
    · intro ho hm
      have := p6 ho hm
      exact q6 ho ⟨this.1, fun v hv' => this.2 v (hsp.subset hv')⟩

end Verif.Tv
