import Verif.Ebml.LoadEnds
import Verif.Ebml.ParseSpec
/-!
What every loaded tree is, whatever the bytes: `Typed` says that an element is of a type of the
schema, with a value decoded from bytes of the stream, and that its children are of types the schema
has for them.
-/
set_option linter.unusedSimpArgs false
namespace Verif.Ebml.Scan

/-- The schema has a place for type `r` inside the types `chain` (innermost first): the innermost lists
it, or it is global, or, when unrecognised elements are kept, it is one of them. -/
def Place (S : Schema) (a : Bool) (chain : List Nat) (r : Nat) : Prop :=
  (∃ c sem, chain.head? = some c ∧ (S.ctx c).sem = some sem ∧ r ∈ sem) ∨ r ∈ S.globals ∨ (a = true ∧ r ∈ chain)

mutual
/-- The element is of type `r`, its value the one bytes of the stream stand for, its children in place. -/
def Typed (S : Schema) (env : Env) (a : Bool) (data : Bytes) (chain : List Nat) (r : Nat) : Node → Prop
  | .leaf b v => b.id = (S.ctx r).id ∧ (S.ctx r).cls = leafCls v ∧
      (v = .void ∨ ∃ p, p <:+: data ∧ b.dataSize = p.length ∧ readLeaf env p (S.ctx r).cls = some v)
  | .crc b v => b.id = (S.ctx r).id ∧ (S.ctx r).cls = .crc ∧ ∃ p, p <:+: data ∧ p.length = 4 ∧ v = BitVec.ofNat 32 (leNat p)
  | .dummy _ p => a = true ∧ (S.ctx r).cls = .dummy ∧ p <:+: data
  | .master b _ ch => b.id = (S.ctx r).id ∧ (S.ctx r).cls = .master ∧ TypedAll S env a data (r :: chain) ch
/-- Each is of a type with a place inside `chain`, or, when they are kept, an unrecognised element holding
bytes of the stream. -/
def TypedAll (S : Schema) (env : Env) (a : Bool) (data : Bytes) (chain : List Nat) : List Node → Prop
  | [] => True
  | n :: ns => ((∃ r, Place S a chain r ∧ Typed S env a data chain r n) ∨ (a = true ∧ ∃ b p, n = .dummy b p ∧ p <:+: data)) ∧
      TypedAll S env a data chain ns
end

theorem typedAll_append (S : Schema) (env : Env) (a : Bool) (data : Bytes) (chain : List Nat) (ns ns' : List Node) :
    TypedAll S env a data chain (ns ++ ns') ↔ TypedAll S env a data chain ns ∧ TypedAll S env a data chain ns' := by
  induction ns with
  | nil => simp [TypedAll]
  | cons n ns ih => simp only [List.cons_append, TypedAll, ih, and_assoc]

theorem readExact_infix (data p : Bytes) (pos n : Nat) (h : readExact data pos n = some p) : p <:+: data ∧ p.length = n := by
  unfold readExact at h
  split at h
  · rename_i hl
    injection h with h
    subst h
    exact ⟨(List.take_prefix _ _).isInfix.trans (List.drop_suffix _ _).isInfix, by rw [List.length_take]; omega⟩
  · cases h

/-- What reading an element of the given kind must deliver. -/
def TypedKind (S : Schema) (env : Env) (a : Bool) (data : Bytes) (chain : List Nat) (k : Kind) (n : Node) : Prop :=
  match k with
  | .known r => Typed S env a data chain r n
  | .dummy _ => a = true ∧ ∃ b p, n = .dummy b p ∧ p <:+: data

theorem readLeaf_cls (env : Env) (p : Bytes) (c : Cls) (v : Leaf) (h : readLeaf env p c = some v) : c = leafCls v := by
  cases c <;> simp only [readLeaf, Option.map_eq_some_iff, Option.some.injEq] at h
  all_goals first
    | (obtain ⟨_, _, rfl⟩ := h; rfl)
    | (subst h; rfl)
    | (cases h)

theorem leafCls_void (v : Leaf) (h : Cls.void = leafCls v) : v = .void := by
  cases v <;> simp [leafCls] at h ⊢

theorem readFlat_typed (S : Schema) (env : Env) (a : Bool) (data0 data : Bytes) (chain : List Nat) (f : Found) (q : Nat)
    (ha : Ahead S a data.length q f) (hp : data <+: data0) (n : Node) (p : Nat) (hm : f.kind.cls S ≠ .master)
    (h : readFlat S env data f = .ok n p) : TypedKind S env a data0 chain f.kind n := by
  have hfin : f.finite = true := by
    cases hf : f.finite with
    | true => rfl
    | false => exact absurd (ha.unk hf).2.2 hm
  have hds := (ha.fin hfin).1
  have hreal := ha.real
  have hid : ∀ r, f.kind = .known r → ∀ vs, (f.base S vs).id = (S.ctx r).id := by
    intro r hk vs; simp only [Found.base, Found.id, hk]
  have hsz : ∀ vs, (f.base S vs).dataSize = f.dataSize := fun _ => rfl
  unfold readFlat at h
  cases hk : f.kind with
  | dummy i =>
    rw [hk] at h
    simp only [Kind.cls] at h
    have hat : a = true := by
      cases a with
      | true => rfl
      | false => have := hreal rfl; rw [hk] at this; simp [Kind.isDummy, Kind.cls] at this
    cases hr : readExact data f.posData f.dataSize.toNat with
    | none => rw [hr] at h; cases h
    | some x =>
      rw [hr] at h
      injection h with h1 h2
      exact ⟨hat, _, x, h1.symm, (readExact_infix _ _ _ _ hr).1.trans hp.isInfix⟩
  | known r =>
    rw [hk] at h hm
    simp only [TypedKind]
    have hi := hid r hk
    simp only [Kind.cls] at h hm
    have leafCase : ∀ c, (S.ctx r).cls = c →
        (match readExact data f.posData f.dataSize.toNat with
          | none => RRes.err data.length
          | some p =>
            match readLeaf env p c with
            | some v => RRes.ok (Node.leaf (f.base S true) v) (f.posData + p.length)
            | none => RRes.err (f.posData + p.length)) = RRes.ok n p → Typed S env a data0 chain r n := by
      intro c hc h
      cases hr : readExact data f.posData f.dataSize.toNat with
      | none => rw [hr] at h; cases h
      | some x =>
        rw [hr] at h
        obtain ⟨hx, hl⟩ := readExact_infix _ _ _ _ hr
        simp only at h
        cases hv : readLeaf env x c with
        | none => rw [hv] at h; cases h
        | some v =>
          rw [hv] at h
          injection h with h1 h2
          subst h1
          refine ⟨hi _, by rw [hc]; exact readLeaf_cls env x c v hv, .inr ⟨x, hx.trans hp.isInfix, ?_, by rw [hc]; exact hv⟩⟩
          rw [hsz, hl]; omega
    cases hc : (S.ctx r).cls with
    | void =>
      rw [hc] at h
      injection h with h1 h2
      subst h1
      exact ⟨hi _, hc, .inl rfl⟩
    | crc =>
      rw [hc] at h
      simp only at h
      cases hr : readExact data f.streamPos.toNat 4 with
      | none => rw [hr] at h; cases h
      | some x =>
        rw [hr] at h
        injection h with h1 h2
        subst h1
        obtain ⟨hx, hl⟩ := readExact_infix _ _ _ _ hr
        exact ⟨hi _, hc, x, hx.trans hp.isInfix, hl, rfl⟩
    | dummy =>
      rw [hc] at h
      simp only at h
      have hat : a = true := by
        cases a with
        | true => rfl
        | false => have := hreal rfl; rw [hk] at this; simp [Kind.isDummy, Kind.cls, hc] at this
      cases hr : readExact data f.posData f.dataSize.toNat with
      | none => rw [hr] at h; cases h
      | some x =>
        rw [hr] at h
        injection h with h1 h2
        subst h1
        exact ⟨hat, hc, (readExact_infix _ _ _ _ hr).1.trans hp.isInfix⟩
    | master => exact absurd hc hm
    | uint => rw [hc] at h; exact leafCase _ hc h
    | sint => rw [hc] at h; exact leafCase _ hc h
    | date => rw [hc] at h; exact leafCase _ hc h
    | float => rw [hc] at h; exact leafCase _ hc h
    | str => rw [hc] at h; exact leafCase _ hc h
    | bin => rw [hc] at h; exact leafCase _ hc h

/-- What was found at this level has a place there. -/
def InPlace (S : Schema) (a : Bool) (chain : List Nat) (g : Found) : Prop := ∀ r, g.kind = .known r → Place S a chain r

theorem findNext_place (S : Schema) (a : Bool) (fuel : Nat) (data : Bytes) (start : Nat) (ctx : List PCtx) (g : Found)
    (ho : Open ctx) (h : findNext S a fuel data start ctx 0 = .found g) (hl : ¬ g.levels > 0) : InPlace S a (ctx.map (·.ref)) g := by
  have ha := findNext_ahead S a fuel data start ctx 0 g ho.last h
  obtain ⟨j, hj⟩ := findNext_found S a fuel data start (Nat.le_of_lt ha.lt) ctx 0 g h
  have hj0 : j = 0 := by have := hj.levels; omega
  intro r hr
  rcases hj.level r hr with ⟨c, sem, h1, h2, h3⟩ | h1 | ⟨h1, c, h2, h3⟩
  · left
    subst hj0
    refine ⟨c.ref, sem, ?_, h2, h3⟩
    cases ctx with
    | nil => simp at h1
    | cons d up => simp at h1; simp [h1]
  · exact .inr (.inl h1)
  · exact .inr (.inr ⟨h1, List.mem_map.2 ⟨c, h2, h3⟩⟩)

theorem typed_child (S : Schema) (env : Env) (a : Bool) (data : Bytes) (chain : List Nat) (g : Found) (n : Node)
    (hp : InPlace S a chain g) (h : TypedKind S env a data chain g.kind n) : TypedAll S env a data chain [n] := by
  simp only [TypedAll, and_true]
  cases hk : g.kind with
  | known r => rw [hk] at h; exact .inl ⟨r, hp r hk, h⟩
  | dummy i => rw [hk] at h; exact .inr h

theorem addChild_typed (S : Schema) (env : Env) (a : Bool) (data0 : Bytes) (chain : List Nat) (k : Nat) (f g : Found) (s s' : LSt) (n : Node)
    (hn : TypedAll S env a data0 chain [n]) (hs : TypedAll S env a data0 chain s.kids) (hp : s.data <+: data0)
    (h : addChild k f g s n = some s') : TypedAll S env a data0 chain s'.kids ∧ s'.data <+: data0 := by
  have both : TypedAll S env a data0 chain (s.kids ++ [n]) := (typedAll_append ..).2 ⟨hs, hn⟩
  cases n with
  | crc b v =>
    simp only [addChild] at h
    split at h
    · simp only [takeCrc] at h
      split at h
      · split at h
        · split at h
          · cases h
          · split at h
            · injection h with h; subst h; exact ⟨hs, hp⟩
            · cases h
        · split at h
          · injection h with h; subst h; exact ⟨hs, (List.take_prefix _ _).trans hp⟩
          · injection h with h; subst h; exact ⟨both, hp⟩
      · injection h with h; subst h; exact ⟨both, hp⟩
    · injection h with h; subst h; exact ⟨both, hp⟩
  | leaf b v => injection h with h; subst h; exact ⟨both, hp⟩
  | dummy b v => injection h with h; subst h; exact ⟨both, hp⟩
  | master b c v => injection h with h; subst h; exact ⟨both, hp⟩

theorem finish_typed (S : Schema) (env : Env) (a : Bool) (data0 : Bytes) (chain : List Nat) (f : Found) (s : LSt) (r : Nat) (pos : Nat)
    (hk : f.kind = .known r) (hm : (S.ctx r).cls = .master) (hs : TypedAll S env a data0 (r :: chain) s.kids) (n : Node) (p : Nat)
    (h : finish S f s pos = .ok n p) : Typed S env a data0 chain r n := by
  simp only [finish] at h
  injection h with h1 h2
  subst h1
  exact ⟨by simp only [Found.base, Found.id, hk], hm, hs⟩

theorem read_typed (S : Schema) (env : Env) (a : Bool) (data0 : Bytes) (fuel : Nat) :
    (∀ data mem ctx k f q n p, Open ctx → Ahead S a data.length q f → data <+: data0 →
      readElt S env a fuel data mem ctx k f = .ok n p → TypedKind S env a data0 (ctx.map (·.ref)) f.kind n) ∧
    (∀ ctx c k f s g q r n p, Open (c :: ctx) → c.ref = r → f.kind = .known r → (S.ctx r).cls = .master →
      Ahead S a s.data.length q g → InPlace S a (r :: ctx.map (·.ref)) g → s.data <+: data0 →
      TypedAll S env a data0 (r :: ctx.map (·.ref)) s.kids →
      readLoop S env a fuel (c :: ctx) k f s g = .ok n p → Typed S env a data0 (ctx.map (·.ref)) r n) := by
  induction fuel with
  | zero =>
    refine ⟨?_, ?_⟩
    · intro data mem ctx k f q n p _ _ _ h; simp [readElt] at h
    · intro ctx c k f s g q r n p _ _ _ _ _ _ _ _ h; simp [readLoop] at h
  | succ fuel ih =>
    obtain ⟨ih1, ih2⟩ := ih
    have nextT : ∀ ctx c k f (s s' : LSt) data start r n p, Open (c :: ctx) → c.ref = r → f.kind = .known r → (S.ctx r).cls = .master →
        s'.data = data → data <+: data0 → TypedAll S env a data0 (r :: ctx.map (·.ref)) s.kids →
        TypedAll S env a data0 (r :: ctx.map (·.ref)) s'.kids →
        next S f s (findNext S a (data.length + 1) data start (c :: ctx) 0) (fun g => readLoop S env a fuel (c :: ctx) k f s' g) = .ok n p →
        Typed S env a data0 (ctx.map (·.ref)) r n := by
      intro ctx c k f s s' data start r n p ho hc hk hm hd hp hs hs' h
      generalize hf : findNext S a (data.length + 1) data start (c :: ctx) 0 = o at h
      cases o with
      | bad => simp [next] at h
      | fuelOut => simp [next] at h
      | none lv p' =>
        simp only [next] at h
        split at h
        · cases h
        · exact finish_typed S env a data0 _ f s r _ hk hm hs n p h
      | found g =>
        simp only [next] at h
        split at h
        · exact finish_typed S env a data0 _ f s r _ hk hm hs n p h
        · rename_i hl
          split at h
          · exact finish_typed S env a data0 _ f s r _ hk hm hs n p h
          · have hpl := findNext_place S a _ data start _ g ho hf hl
            have hah := findNext_ahead S a _ data start _ 0 g ho.last hf
            subst hc hd
            exact ih2 ctx c k f s' g start _ n p ho rfl hk hm hah hpl hp hs' h
    refine ⟨?_, ?_⟩
    · intro data mem ctx k f q n p ho ha hp h
      rw [readElt] at h
      cases hk : f.kind with
      | dummy i =>
        rw [hk] at h
        have := readFlat_typed S env a data0 data (ctx.map (·.ref)) f q ha hp n p (by rw [hk]; simp [Kind.cls]) h
        rw [hk] at this
        exact this
      | known r =>
        rw [hk] at h
        simp only [] at h
        by_cases hm : (S.ctx r).cls = .master
        · rw [if_pos hm] at h
          simp only [TypedKind]
          split at h
          · exact nextT ctx ⟨r, f.endPos⟩ k f _ _ data f.posData r n p (ho.cons _) rfl hk hm rfl hp (by simp [TypedAll]) (by simp [TypedAll]) h
          · exact finish_typed S env a data0 _ f _ r _ hk hm (by simp [TypedAll]) n p h
        · rw [if_neg hm] at h
          have := readFlat_typed S env a data0 data (ctx.map (·.ref)) f q ha hp n p (by rw [hk]; exact hm) h
          rw [hk] at this
          exact this
    · intro ctx c k f s g q r n p ho hc hk hm ha hpl hp hs h
      have after : ∀ s' : LSt, s'.data <+: data0 → TypedAll S env a data0 (r :: ctx.map (·.ref)) s'.kids →
          turn S a f s' (c :: ctx) (fun s g => readLoop S env a fuel (c :: ctx) k f s g) = .ok n p →
          Typed S env a data0 (ctx.map (·.ref)) r n := by
        intro s' hp' hs' ht
        simp only [turn] at ht
        split at ht
        · exact finish_typed S env a data0 _ f s' r _ hk hm hs' n p ht
        · exact nextT ctx c k f s' s' s'.data s'.pos r n p ho hc hk hm rfl hp' hs' hs' ht
      rw [readLoop] at h
      split at h
      · split at h
        · cases h
        · refine after _ ?_ ?_ h
          · exact hp
          · exact hs
      · split at h
        · cases h
        · cases h
        · refine after _ ?_ ?_ h
          · exact hp
          · exact hs
        · rename_i n' p' he
          have hn := ih1 _ _ _ _ _ _ _ _ ho ha hp he
          rw [List.map_cons, hc] at hn
          split at h
          · cases h
          · rename_i s' hadd
            obtain ⟨hs', hp'⟩ := addChild_typed S env a data0 _ k f g s s' n' (typed_child S env a data0 _ g n' hpl hn) hs hp hadd
            split at h
            · cases h
            · refine after _ ?_ ?_ h
              · exact hp'
              · exact hs'

end Verif.Ebml.Scan
