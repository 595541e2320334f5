import Verif.Spec.Order
import Verif.Props.Program
/-!
# C113: the order of commands, and copying back and on
-/

namespace MapEditr
open Spec

/-! ## The order of commands -/

theorem meaning_idle {args : InstArgs} {S W : Nodes} {p : Vec3} (h : ¬ ActsOn args p) : meaning args S W p = W p := by
  by_cases hv : args.command = "vacuum"
  · unfold meaning
    split
    · rename_i e; exact absurd (hv.symm.trans e) (by decide)
    · rename_i e; exact absurd (hv.symm.trans e) (by decide)
    · rename_i e; exact absurd (hv.symm.trans e) (by decide)
    · cases W p with
      | none => rfl
      | some v => rw [Option.map_some, edit_other (.inr (.inr hv))]
  · exact meaning_untouched fun e => h ⟨hv, e⟩

/-- A node depends on the one that was there, and on the one that is copied. -/
theorem meaning_local {args : InstArgs} {S W W' : Nodes} {p : Vec3} (h : W p = W' p)
    (hc : ∀ q, TakesFrom args q → W q = W' q) : meaning args S W p = meaning args S W' p := by
  unfold meaning
  split
  · rename_i e
    unfold copiedNode
    rw [h]
    split
    · rfl
    · split
      · rename_i x
        rw [hc _ ⟨e, x.1⟩]
      · rfl
  · unfold laidNode copiedNode
    rw [h]
  · rw [h]
  · rw [h]

theorem meaning_comm {a b : InstArgs} (h : Apart a b) (S T W : Nodes) :
    meaning b T (meaning a S W) = meaning a S (meaning b T W) := by
  funext p
  by_cases ha : ActsOn a p
  · have hb : ¬ ActsOn b p := fun e => h.works p ⟨ha, e⟩
    rw [meaning_idle hb]
    exact meaning_local (meaning_idle hb).symm fun q hq => (meaning_idle fun e => h.left q ⟨hq, e⟩).symm
  · rw [meaning_idle (W := meaning b T W) ha]
    exact meaning_local (meaning_idle ha) fun q hq => meaning_idle fun e => h.right q ⟨e, hq⟩

theorem restMeaning_local {args : InstArgs} {S W W' : Rests} {bp : Vec3} (h : W bp = W' bp) :
    restMeaning args S W bp = restMeaning args S W' bp := by
  unfold restMeaning
  rw [h]

open Classical in
/-- What a command does to what is beside the nodes of a block. -/
theorem rest_kind (args : InstArgs) (bp : Vec3) :
    (∀ S W, restMeaning args S W bp = W bp) ∨
    (∃ f : StaticObject → Bool, ((∀ p, InBlock bp p → ¬ ActsOn args p) → ∀ o, f o = true) ∧
      ∀ S W, restMeaning args S W bp = (W bp).map fun r => { r with objects := r.objects.filter f }) ∨
    (∀ p, InBlock bp p → ActsOn args p) := by
  by_cases h1 : args.command = "deleteobjects"
  · refine .inr (.inl ⟨_, ?_, fun S W => by unfold restMeaning; simp only [h1]; rfl⟩)
    intro h o
    refine decide_eq_true ?_
    rintro ⟨⟨q, hq, hs⟩, -⟩
    refine h q hq ⟨by rw [h1]; decide, ?_⟩
    unfold Touches
    rw [h1]
    exact hs
  · by_cases h2 : args.command = "deleteblocks"
    · by_cases hw : Whole args.area args.invert bp
      · refine .inr (.inr fun p hp => ⟨by rw [h2]; decide, ?_⟩)
        unfold Touches
        rw [h2]
        exact hw p hp
      · refine .inl fun S W => ?_
        unfold restMeaning
        rw [h2]
        simp only [if_neg hw]
    · by_cases h3 : args.command = "overlay"
      · by_cases ho : args.offset.getD ⟨0, 0, 0⟩ = ⟨0, 0, 0⟩
        · by_cases ht : Spec.Touched args.area args.invert bp
          · refine .inr (.inr fun p hp => ⟨by rw [h3]; decide, ?_⟩)
            obtain ⟨q, hq, hs⟩ := ht
            unfold Touches
            rw [h3]
            simp only [if_pos ho]
            exact ⟨q, by rw [inBlock_unique (inBlock_blockOf p) hp] at hq; exact hq, hs⟩
          · have hw : ¬ Whole args.area args.invert bp := fun hw => ht ⟨_, posAt_inBlock bp (i := 0) (by omega),
              hw _ (posAt_inBlock bp (by omega))⟩
            refine .inl fun S W => ?_
            unfold restMeaning
            rw [h3]
            simp only [ne_eq, ho, not_true_eq_false, if_false, if_neg hw, ht, false_and]
        · refine .inl fun S W => ?_
          unfold restMeaning
          rw [h3]
          simp only [ne_eq, ho, not_false_eq_true, if_true]
      · refine .inl fun S W => ?_
        unfold restMeaning
        split
        · rename_i e; exact absurd e h1
        · rename_i e; exact absurd e h2
        · rename_i e; exact absurd e h3
        · rfl

theorem rest_idle {args : InstArgs} {bp : Vec3} (h : ∀ p, InBlock bp p → ¬ ActsOn args p) (S W : Rests) :
    restMeaning args S W bp = W bp := by
  rcases rest_kind args bp with k | ⟨f, kf, k⟩ | k
  · exact k S W
  · rw [k]
    cases W bp with
    | none => rfl
    | some r => rw [Option.map_some, List.filter_eq_self.2 fun o _ => kf h o]
  · have hi := posAt_inBlock bp (i := 0) (by omega)
    exact absurd (k _ hi) (h _ hi)

theorem rest_comm {a b : InstArgs} (h : Apart a b) (S T W : Rests) :
    restMeaning b T (restMeaning a S W) = restMeaning a S (restMeaning b T W) := by
  funext bp
  have still : ∀ {x y : InstArgs} {X Y : Rests}, (∀ S W, restMeaning x S W bp = W bp) →
      restMeaning y Y (restMeaning x X W) bp = restMeaning x X (restMeaning y Y W) bp := by
    intro x y X Y k
    rw [k X (restMeaning y Y W)]
    exact restMeaning_local (k X W)
  rcases rest_kind a bp with ka | ⟨f, -, ka⟩ | ka
  · exact still ka
  · rcases rest_kind b bp with kb | ⟨g, -, kb⟩ | kb
    · exact (still kb).symm
    · rw [ka, kb, ka, kb]
      cases W bp with
      | none => rfl
      | some r =>
        simp only [Option.map_some, List.filter_filter, Bool.and_comm]
    · exact still (rest_idle fun p hp e => h.works p ⟨e, kb p hp⟩)
  · exact (still (rest_idle fun p hp e => h.works p ⟨ka p hp, e⟩)).symm

theorem Spec.Apart.symm {a b : InstArgs} (h : Apart a b) : Apart b a :=
  ⟨fun p e => h.works p e.symm, fun p e => h.right p e.symm, fun p e => h.left p e.symm⟩

theorem pairwise_mem {R : α → α → Prop} (hs : ∀ a b, R a b → R b a) {l : List α} (h : l.Pairwise R) {x y : α}
    (hx : x ∈ l) (hy : y ∈ l) : x = y ∨ R x y := by
  induction l with
  | nil => exact absurd hx List.not_mem_nil
  | cons z l ih =>
    rw [List.pairwise_cons] at h
    rcases List.mem_cons.1 hx with e | hx'
    · rcases List.mem_cons.1 hy with e' | hy'
      · exact .inl (e.trans e'.symm)
      · exact .inr (e ▸ h.1 _ hy')
    · rcases List.mem_cons.1 hy with e' | hy'
      · exact .inr (e' ▸ hs _ _ (h.1 _ hx'))
      · exact ih h.2 hx' hy'

theorem foldl_perm {α β : Type} {f : β → α → β} {R : α → α → Prop} (hs : ∀ a b, R a b → R b a)
    (hc : ∀ a b z, R a b → f (f z a) b = f (f z b) a) {l l' : List α} (hp : l.Perm l') (h : l.Pairwise R) (z : β) :
    l.foldl f z = l'.foldl f z :=
  hp.foldl_eq' (fun x hx y hy z => by
    rcases pairwise_mem hs h hx hy with rfl | e
    · rfl
    · first | exact hc _ _ _ e | exact (hc _ _ _ e).symm) z

/-- **C113**: commands that have nothing to do with each other may be given in any order: the contents of the map are
the same in the end. -/
theorem C113_order (c : Codec) (l l' : List (InstArgs × Table)) (t t' u' : Table) (K : Nat) (hg : GoodTable t)
    (hb : AllBlocks c t (Usual K)) (hp : AllBlocks c t PlainInvs)
    (ha : ∀ x ∈ l, AnyArgs x.1 ∧ (x.1.command = "overlay" → Source c K x.2 ∧ AllBlocks c x.2 PlainInvs))
    (hK : 4095 ≤ K) (hK' : K + l.length ≤ 7281) (hl : l.Perm l') (hap : l.Pairwise fun x y => Apart x.1 y.1)
    (h : RanAll c l t t') (h' : RanAll c l' t u') :
    nodesOf c u' = nodesOf c t' ∧ restsOf c u' = restsOf c t' := by
  obtain ⟨e1, e2⟩ := C97_session c l t t' K hg hb hp ha hK hK' h
  obtain ⟨e3, e4⟩ := C97_session c l' t u' K hg hb hp (fun x hx => ha x (hl.mem_iff.2 hx)) hK (hl.length_eq ▸ hK') h'
  rw [e1, e2, e3, e4]
  have hs : ∀ x y : InstArgs × Table, Apart x.1 y.1 → Apart y.1 x.1 := fun _ _ e => e.symm
  exact ⟨(foldl_perm hs (fun x y W e => meaning_comm e _ _ W) hl hap _).symm,
    (foldl_perm hs (fun x y W e => rest_comm e _ _ W) hl hap _).symm⟩

/-! ## Inside and outside -/

/-- What is done inside of an area and then outside of it is done everywhere. -/
theorem C113_halves (c : Codec) (args : InstArgs) (a : Area) (s t t' t'' u' : Table) (K : Nat) (hg : GoodTable t)
    (hb : AllBlocks c t (Usual K)) (hp : AllBlocks c t PlainInvs) (hK : 4095 ≤ K) (hK' : K ≤ 7279)
    (hc : args.command ∈ sweepCommands) (h1 : AnyArgs (within args (some a) false)) (h2 : AnyArgs (within args (some a) true))
    (h0 : AnyArgs (within args none false)) (h : Ran c (within args (some a) false) s t t')
    (h' : Ran c (within args (some a) true) s t' t'') (hu : Ran c (within args none false) s t u') :
    nodesOf c t'' = nodesOf c u' ∧ restsOf c t'' = restsOf c u' := by
  have hr0 : ∀ x ∈ sweepCommands, x ≠ "deleteobjects" ∧ x ≠ "overlay" ∧ x ≠ "deleteblocks" := by decide
  have rest : ∀ (area : Option Area) (inv : Bool) (S W : Rests), restMeaning (within args area inv) S W = W := by
    intro area inv S W
    obtain ⟨n1, n2, n3⟩ := hr0 _ hc
    funext bp
    unfold restMeaning
    split
    · rename_i e; exact absurd e n1
    · rename_i e; exact absurd e n3
    · rename_i e; exact absurd e n2
    · rfl
  have hv0 : ∀ x ∈ sweepCommands, x ≠ "clone" ∧ x ≠ "overlay" ∧ x ≠ "deleteblocks" := by decide
  obtain ⟨n1, n2, n3⟩ := hv0 _ hc
  have any : ∀ (area : Option Area) (inv : Bool) (S W : Nodes) (p : Vec3),
      meaning (within args area inv) S W p = (W p).map (edit (within args area inv) p) := by
    intro area inv S W p
    unfold meaning
    split
    · rename_i e; exact absurd e n1
    · rename_i e; exact absurd e n2
    · rename_i e; exact absurd e n3
    · rfl
  obtain ⟨k, kp⟩ := means_every (args := within args (some a) false) hg hb hp (fun e => absurd e n2) hK (by omega) h1 h
  constructor
  case right =>
    rw [C97_run c (within args (some a) true) s t' t'' (K + 1) k.good k.usual (fun _ => kp) (fun e => absurd e n2)
        (by omega) (by omega) h2 h', rest,
      C97_run c (within args (some a) false) s t t' K hg hb (fun _ => hp) (fun e => absurd e n2) hK (by omega) h1 h, rest,
      C97_run c (within args none false) s t u' K hg hb (fun _ => hp) (fun e => absurd e n2) hK (by omega) h0 hu, rest]
  rw [C96_run c (within args (some a) true) s t' t'' (K + 1) k.good k.usual kp (fun e => absurd e n2) (by omega) (by omega) h2 h', k.nodes,
    C96_run c (within args none false) s t u' K hg hb hp (fun e => absurd e n2) hK (by omega) h0 hu]
  funext p
  rw [any, any, any]
  cases nodesOf c t p with
  | none => rfl
  | some v =>
    simp only [Option.map_some, Option.some.injEq]
    have in' : Selected (within args none false).area (within args none false).invert p := trivial
    by_cases hi : InBox a.min a.max p
    · have h1 : Selected (within args (some a) false).area (within args (some a) false).invert p :=
        ⟨fun _ => rfl, fun _ => hi⟩
      have h2 : ¬ Selected (within args (some a) true).area (within args (some a) true).invert p :=
        fun e => nomatch e.1 hi
      rw [edit_skip h2]
      unfold edit
      rw [if_pos h1, if_pos in']
      rfl
    · have h1 : ¬ Selected (within args (some a) false).area (within args (some a) false).invert p :=
        fun e => hi (e.2 rfl)
      have h2 : Selected (within args (some a) true).area (within args (some a) true).invert p :=
        ⟨fun e => absurd e hi, nofun⟩
      rw [edit_skip h1]
      unfold edit
      rw [if_pos h2, if_pos in']
      rfl

theorem atNode_unique {o : StaticObject} {p q : Vec3} (h : AtNode o p) (h' : AtNode o q) : p = q := by
  unfold AtNode at h h'
  cases p; cases q
  simp only [Vec3.mk.injEq] at *
  omega

open Classical in
/-- Also objects deleted inside of an area and then outside of it are deleted everywhere, if they are in their blocks. -/
theorem C113_halves_objects (c : Codec) (args : InstArgs) (a : Area) (s t t' t'' u' : Table) (K : Nat) (hg : GoodTable t)
    (hb : AllBlocks c t (Usual K)) (hp : AllBlocks c t PlainInvs) (hK : 4095 ≤ K) (hK' : K ≤ 7279)
    (hc : args.command = "deleteobjects") (hh : AtHome (restsOf c t)) (h1 : AnyArgs (within args (some a) false))
    (h2 : AnyArgs (within args (some a) true)) (h0 : AnyArgs (within args none false))
    (h : Ran c (within args (some a) false) s t t') (h' : Ran c (within args (some a) true) s t' t'')
    (hu : Ran c (within args none false) s t u') :
    nodesOf c t'' = nodesOf c u' ∧ restsOf c t'' = restsOf c u' := by
  have n2 : args.command ≠ "overlay" := by rw [hc]; decide
  have node : ∀ (area : Option Area) (inv : Bool) (S W : Nodes), meaning (within args area inv) S W = W := by
    intro area inv S W
    funext p
    unfold meaning
    rw [show (within args area inv).command = "deleteobjects" from hc]
    show (W p).map (edit (within args area inv) p) = W p
    have : edit (within args area inv) p = id := by
      funext v
      unfold edit
      rw [show (within args area inv).command = "deleteobjects" from hc]
      split <;> rfl
    rw [this]; simp
  have rest : ∀ (area : Option Area) (inv : Bool) (S W : Rests) (bp : Vec3), restMeaning (within args area inv) S W bp =
      (W bp).map fun r => { r with objects := r.objects.filter fun o => ¬ ObjectGoes (within args area inv) bp o } := by
    intro area inv S W bp
    unfold restMeaning
    rw [show (within args area inv).command = "deleteobjects" from hc]
    rfl
  obtain ⟨k, kp⟩ := means_every (args := within args (some a) false) hg hb hp (fun e => absurd e n2) hK (by omega) h1 h
  constructor
  · rw [C96_run c (within args (some a) true) s t' t'' (K + 1) k.good k.usual kp (fun e => absurd e n2) (by omega) (by omega) h2 h', k.nodes,
      C96_run c (within args none false) s t u' K hg hb hp (fun e => absurd e n2) hK (by omega) h0 hu, node, node, node]
  · rw [C97_run c (within args (some a) true) s t' t'' (K + 1) k.good k.usual (fun _ => kp) (fun e => absurd e n2)
        (by omega) (by omega) h2 h',
      C97_run c (within args (some a) false) s t t' K hg hb (fun _ => hp) (fun e => absurd e n2) hK (by omega) h1 h,
      C97_run c (within args none false) s t u' K hg hb (fun _ => hp) (fun e => absurd e n2) hK (by omega) h0 hu]
    funext bp
    rw [rest, rest, rest]
    cases hr : restsOf c t bp with
    | none => rfl
    | some r =>
      simp only [Option.map_some, Option.some.injEq, List.filter_filter]
      congr 1
      refine List.filter_congr fun o ho => ?_
      obtain ⟨p, hp1, hp2⟩ := hh bp r hr o ho
      have key : ObjectGoes (within args none false) bp o ↔
          ObjectGoes (within args (some a) false) bp o ∨ ObjectGoes (within args (some a) true) bp o := by
        have sel : ∀ area inv, ObjectGoes (within args area inv) bp o ↔ Selected area inv p ∧
            ∀ name, entityFor args = some name → ∃ data, EntityIs o name data ∧
              (itemsFor args = [] ∨ ∃ item ∈ itemsFor args, ItemName data item) := by
          intro area inv
          constructor
          · rintro ⟨-, ⟨q, hq, hs⟩, he⟩
            rw [atNode_unique hp1 hq]
            exact ⟨hs, he⟩
          · rintro ⟨hs, he⟩
            exact ⟨⟨p, hp2, hs⟩, ⟨p, hp1, hs⟩, he⟩
        rw [sel, sel, sel]
        by_cases hi : InBox a.min a.max p
        · simp [Selected, hi]
        · simp [Selected, hi]
      by_cases g1 : ObjectGoes (within args (some a) false) bp o <;>
        by_cases g2 : ObjectGoes (within args (some a) true) bp o <;> simp [key, g1, g2]

/-! ## Copying back and on -/

theorem unshift_shift (p o : Vec3) : unshift (shift p o) o = p := by
  cases p; cases o
  simp only [unshift, shift, Vec3.mk.injEq]
  omega

theorem unshift_opposite (p o : Vec3) : unshift p (opposite o) = shift p o := by
  cases p; cases o
  simp only [unshift, shift, opposite, Vec3.mk.injEq]
  omega

theorem selected_shift (a : Area) (p o : Vec3) : Selected (some (a.add o)) false (shift p o) ↔ Selected (some a) false p := by
  unfold Selected InBox Area.add Vec3.add shift
  simp only [iff_true]
  omega

theorem shift_unshift (p o : Vec3) : shift (unshift p o) o = p := by
  cases p; cases o
  simp only [unshift, shift, Vec3.mk.injEq]
  omega

theorem meaning_clone {args : InstArgs} {a : Area} {o : Vec3} (hc : args.command = "clone") (ha : args.area = some a)
    (ho : args.offset = some o) (S W : Nodes) : meaning args S W = copiedNode (some a) o W W := by
  funext p
  unfold meaning
  rw [hc, ha, ho]
  rfl

/-- Timers stay where they are. -/
theorem copied_timers (area : Option Area) (o : Vec3) (S : Nodes) {W : Nodes} {p : Vec3} {v : NodeView} (h : W p = some v) :
    ∃ v', copiedNode area o S W p = some v' ∧ v'.timers = v.timers := by
  unfold copiedNode
  rw [h]
  simp only
  split
  · cases S (unshift p o) <;> exact ⟨_, rfl, rfl⟩
  · exact ⟨_, rfl, rfl⟩

/-- An area is copied somewhere and from there back: it is as before, also if both places overlap. -/
theorem C113_back (c : Codec) (args args' : InstArgs) (s s' t t' t'' : Table) (a : Area) (o : Vec3) (K : Nat)
    (hg : GoodTable t) (hb : AllBlocks c t (Usual K)) (hp : AllBlocks c t PlainInvs) (hK : 4095 ≤ K) (hK' : K ≤ 7279)
    (ha : AnyArgs args) (ha' : AnyArgs args') (hc : args.command = "clone") (hc' : args'.command = "clone")
    (harea : args.area = some a) (hoff : args.offset = some o)
    (harea' : args'.area = some (a.add o)) (hoff' : args'.offset = some (opposite o))
    (h : Ran c args s t t') (h' : Ran c args' s' t' t'') (p : Vec3) (hin : InBox a.min a.max p)
    (hw : Within 1937 (blockOf p)) (hw' : Within 1937 (blockOf (shift p o)))
    (hthere : (nodesOf c t (shift p o)).isSome ∨ ¬ InBox (a.add o).min (a.add o).max p) :
    nodesOf c t'' p = nodesOf c t p := by
  have k0 : args.command = "overlay" → False := fun e => absurd (hc.symm.trans e) (by decide)
  have k0' : args'.command = "overlay" → False := fun e => absurd (hc'.symm.trans e) (by decide)
  obtain ⟨k, kp⟩ := means_every hg hb hp (fun e => (k0 e).elim) hK (by omega) ha h
  rw [C96_run c args' s' t' t'' (K + 1) k.good k.usual kp (fun e => (k0' e).elim) (by omega) (by omega) ha' h', k.nodes]
  rw [meaning_clone hc' harea' hoff']
  have e1 : ∀ q, meaning args (nodesOf c s) (nodesOf c t) q = copiedNode (some a) o (nodesOf c t) (nodesOf c t) q :=
    fun q => by rw [meaning_clone hc harea hoff]
  have hsel : Selected (some a) false p := ⟨fun _ => rfl, fun _ => hin⟩
  unfold copiedNode
  rw [e1, e1]
  have hsel' : Selected (some (a.add o)) false (unshift p (opposite o)) := by
    rw [unshift_opposite]
    exact (selected_shift a p o).2 hsel
  rw [unshift_opposite] at hsel' ⊢
  cases hv : nodesOf c t p with
  | none =>
    have : copiedNode (some a) o (nodesOf c t) (nodesOf c t) p = none := by
      unfold copiedNode
      rw [hv]
    rw [this]
  | some v =>
    obtain ⟨v', e2, e3⟩ := copied_timers (some a) o (nodesOf c t) hv
    rw [e2]
    simp only
    rw [if_pos ⟨hsel', hw'⟩]
    cases hx : nodesOf c t (shift p o) with
    | none =>
      have e4 : copiedNode (some a) o (nodesOf c t) (nodesOf c t) (shift p o) = none := by
        unfold copiedNode
        rw [hx]
      rw [e4]
      simp only
      rcases hthere with h1 | h1
      · rw [hx] at h1; cases h1
      · rw [← e2]
        unfold copiedNode
        rw [hv]
        simp only
        rw [if_neg]
        rintro ⟨h2, -⟩
        have : Selected (some (a.add o)) false (shift (unshift p o) o) := (selected_shift a _ o).2 h2
        rw [shift_unshift] at this
        exact h1 (this.2 rfl)
    | some w =>
      have e4 : copiedNode (some a) o (nodesOf c t) (nodesOf c t) (shift p o) = some { v with timers := w.timers } := by
        unfold copiedNode
        rw [hx]
        simp only
        rw [unshift_shift, if_pos ⟨hsel, hw⟩, hv]
      rw [e4]
      simp only [e3]

/-- An area is copied somewhere and from there on: where there were nodes half way, this is as good as copying it at
once. -/
theorem C113_on (c : Codec) (args args1 args2 : InstArgs) (s s1 s2 t t1 t2 u : Table) (a : Area) (o1 o2 : Vec3) (K : Nat)
    (hg : GoodTable t) (hb : AllBlocks c t (Usual K)) (hp : AllBlocks c t PlainInvs) (hK : 4095 ≤ K) (hK' : K ≤ 7279)
    (ha : AnyArgs args) (ha1 : AnyArgs args1) (ha2 : AnyArgs args2)
    (hc : args.command = "clone") (hc1 : args1.command = "clone") (hc2 : args2.command = "clone")
    (harea1 : args1.area = some a) (hoff1 : args1.offset = some o1)
    (harea2 : args2.area = some (a.add o1)) (hoff2 : args2.offset = some o2)
    (harea : args.area = some a) (hoff : args.offset = some (shift o1 o2))
    (h1 : Ran c args1 s1 t t1) (h2 : Ran c args2 s2 t1 t2) (h : Ran c args s t u) (p : Vec3) (hin : InBox a.min a.max p)
    (hsrc : (nodesOf c t p).isSome) (hhalf : (nodesOf c t (shift p o1)).isSome)
    (hw : Within 1937 (blockOf p)) (hw' : Within 1937 (blockOf (shift p o1))) :
    nodesOf c t2 (shift (shift p o1) o2) = nodesOf c u (shift p (shift o1 o2)) := by
  have no : ∀ {x : InstArgs}, x.command = "clone" → ∀ {P : Prop}, x.command = "overlay" → P := fun e _ e' =>
    absurd (e.symm.trans e') (by decide)
  obtain ⟨k, kp⟩ := means_every hg hb hp (no hc1) hK (by omega) ha1 h1
  rw [C96_run c args2 s2 t1 t2 (K + 1) k.good k.usual kp (no hc2) (by omega) (by omega) ha2 h2, k.nodes,
    C96_run c args s t u K hg hb hp (no hc) hK (by omega) ha h, meaning_clone hc2 harea2 hoff2, meaning_clone hc harea hoff]
  have e0 : shift (shift p o1) o2 = shift p (shift o1 o2) := by
    simp only [shift, Vec3.mk.injEq]
    omega
  have e1 : ∀ q, meaning args1 (nodesOf c s1) (nodesOf c t) q = copiedNode (some a) o1 (nodesOf c t) (nodesOf c t) q :=
    fun q => by rw [meaning_clone hc1 harea1 hoff1]
  have hsel : Selected (some a) false p := ⟨fun _ => rfl, fun _ => hin⟩
  obtain ⟨v, hv⟩ := Option.isSome_iff_exists.1 hsrc
  obtain ⟨w, hx⟩ := Option.isSome_iff_exists.1 hhalf
  have e4 : copiedNode (some a) o1 (nodesOf c t) (nodesOf c t) (shift p o1) = some { v with timers := w.timers } := by
    unfold copiedNode
    rw [hx]
    simp only
    rw [unshift_shift, if_pos ⟨hsel, hw⟩, hv]
  conv => lhs; unfold copiedNode
  conv => rhs; unfold copiedNode
  rw [e1, e1, unshift_shift, unshift_shift, e4, hv]
  simp only [hsel, hw, (selected_shift a p o1).2 hsel, hw', and_self, if_true]
  rw [← e0]
  generalize shift (shift p o1) o2 = q
  cases hq : nodesOf c t q with
  | none =>
    have : copiedNode (some a) o1 (nodesOf c t) (nodesOf c t) q = none := by
      unfold copiedNode
      rw [hq]
    rw [this]
  | some x =>
    obtain ⟨x', e5, e6⟩ := copied_timers (some a) o1 (nodesOf c t) hq
    rw [e5]
    simp only [e6]

/-! ## Examples -/

theorem cloneArgs_any (y d : Int) : AnyArgs (cloneArgs y d) :=
  ⟨(by unfold Needs; exact ⟨rfl, rfl⟩), (by intro a h; cases h; rw [isValid_iff]; simp), (by intro n h; cases h),
    fun e => absurd (show "clone" = "replaceininv" from e) (by decide)⟩

theorem clone_ran {t : Table} {K : Nat} (hg : GoodTable t) (hb : AllBlocks (Toy.codec id) t (Usual K)) (hK : K ≤ 7280)
    (y d : Int) (hy : -31000 ≤ y ∧ y ≤ 31000) (hd : -62000 ≤ d ∧ d ≤ 62000) (hyd : -31000 ≤ y + d ∧ y + d ≤ 31000) :
    ∃ t', Ran (Toy.codec id) (cloneArgs y d) [] t t' := by
  have : ∃ t' evs, Completes (editEnv t) (cloneArgs y d) t t' evs := by
    refine C47_clone_completes _ (cloneArgs y d) _ ⟨⟨y, 0, 0⟩, ⟨y, 0, 0⟩⟩ ⟨d, 0, 0⟩ (editEnv_ok _) (fun _ => rfl)
      (editEnv_file _) ⟨_, rfl⟩ hg ?_ rfl rfl ?_ rfl rfl ?_ (by intro h; cases h)
      (Spec.AllBlocks.mono hb fun b u => usual_tame hK u)
    · rintro (⟨h, -⟩ | ⟨a, h, h'⟩ | ⟨o, h, h'⟩ | ⟨n, h, -⟩)
      · cases h
      · cases h
        refine h' ?_
        unfold Within
        simp only
        omega
      · cases h
        refine h' ?_
        unfold Within
        simp only
        omega
      · cases h
    · rw [isValid_iff]
      simp
    · intro h
      refine h ⟨y, 0, 0⟩ ?_ ?_
      · unfold InBox
        simp
      · unfold Within
        simp only
        omega
  obtain ⟨t', evs, h⟩ := this
  exact ⟨t', _, evs, editEnv_ok _, rfl, h, fun _ _ _ => rfl, fun e => absurd (show "clone" = "overlay" from e) (by decide)⟩

theorem fill_any : AnyArgs (fillArgs false) :=
  ⟨(fillArgs_node false).needs, (fillArgs_node false).area, (fillArgs_node false).name, fun e => absurd e (by decide)⟩

theorem fill_ran {t : Table} {K : Nat} (hg : GoodTable t) (hb : AllBlocks (Toy.codec id) t (Usual K)) (hK : K ≤ 7280) :
    ∃ t', Ran (Toy.codec id) (fillArgs false) [] t t' := by
  obtain ⟨t', evs, h⟩ := C32_fill_completes (editEnv t) (fillArgs false) _
    ⟨⟨0, 0, 0⟩, ⟨0, 0, 0⟩⟩ "default:stone" (editEnv_ok _) (fun _ => rfl) (editEnv_file _) ⟨_, rfl⟩ hg
    (fillArgs_ok false) rfl rfl (by decide) rfl (by decide) rfl (by intro h; cases h)
    (Spec.AllBlocks.mono hb fun b u => ⟨named_covered u.fine.named, fun e he =>
      Nat.le_trans (u.fine.small e he) (by omega)⟩)
  exact ⟨t', _, evs, editEnv_ok _, rfl, h, fun e => absurd e (by decide), fun e => absurd e (by decide)⟩

theorem repl_any (area : Option Area) (inv : Bool) (h : AreaOk area) : AnyArgs (within replArgs area inv) :=
  ⟨(by unfold Needs; exact ⟨rfl, rfl⟩), h, (by intro n h; cases h; decide),
    fun e => absurd (show "replacenodes" = "replaceininv" from e) (by decide)⟩

/-- The first block, the node (0, 0, 0) alone. -/
def oneNode : Area := ⟨⟨0, 0, 0⟩, ⟨0, 0, 0⟩⟩

theorem repl_ran {t : Table} {K : Nat} (hg : GoodTable t) (hb : AllBlocks (Toy.codec id) t (Usual K)) (hK : K ≤ 7280)
    (area : Option Area) (inv : Bool) (h : area = none ∧ inv = false ∨ area = some oneNode) :
    ∃ t', Ran (Toy.codec id) (within replArgs area inv) [] t t' := by
  have ho : AreaOk area := by
    rcases h with ⟨rfl, -⟩ | rfl
    · intro a h; cases h
    · intro a h; cases h; decide
  have hv : verifyArgs (within replArgs area inv) = none := by
    rcases h with ⟨rfl, rfl⟩ | rfl
    · decide
    · cases inv <;> decide
  obtain ⟨t3, e3, h3⟩ := C35_replacenodes_completes (editEnv t) (within replArgs area inv) _ "air" "default:stone"
    (editEnv_ok _) (fun _ => rfl) (editEnv_file _) ⟨_, rfl⟩ hg
    (by rw [← verifyArgs_iff]; exact hv)
    (by unfold CommandRefuses; simp [within, replArgs, runArgs]) rfl ho rfl rfl (by decide) rfl
    (by intro h; cases h) (Spec.AllBlocks.mono hb fun b u e he => Nat.le_trans (u.fine.small e he) (by omega))
  exact ⟨t3, _, e3, editEnv_ok _, rfl, h3,
    fun e => absurd (show "replacenodes" = "clone" ∨ "replacenodes" = "overlay" from e) (by decide),
    fun e => absurd (show "replacenodes" = "overlay" from e) (by decide)⟩

/-- The map of the examples. -/
theorem pair_ok : GoodTable (pairMap 0 (Toy.block 28)) ∧ AllBlocks (Toy.codec id) (pairMap 0 (Toy.block 28)) (Usual 4095) ∧
    AllBlocks (Toy.codec id) (pairMap 0 (Toy.block 28)) PlainInvs :=
  have hw := Toy.block_wf 28 (by omega)
  ⟨pairMap_good (by decide) (by decide) _, pairMap_all hw toy_usual, pairMap_all hw toy_plain⟩

theorem fill_clone_apart : Apart (fillArgs false) (cloneArgs 1 19) := by
  have f : ∀ p, ActsOn (fillArgs false) p → p = ⟨0, 0, 0⟩ := by
    rintro ⟨x, y, z⟩ ⟨-, h⟩
    have h : InBox (⟨0, 0, 0⟩ : Vec3) ⟨0, 0, 0⟩ ⟨x, y, z⟩ := h.2 rfl
    unfold InBox at h
    simp only [Vec3.mk.injEq] at h ⊢
    omega
  have g : ∀ p, ActsOn (cloneArgs 1 19) p → p = ⟨20, 0, 0⟩ := by
    rintro ⟨x, y, z⟩ ⟨-, h⟩
    have h : InBox (⟨1, 0, 0⟩ : Vec3) ⟨1, 0, 0⟩ (unshift ⟨x, y, z⟩ ⟨19, 0, 0⟩) := h.2 rfl
    unfold InBox unshift at h
    simp only [Vec3.mk.injEq] at h ⊢
    omega
  refine ⟨?_, ?_, ?_⟩
  · rintro p ⟨h1, h2⟩
    exact absurd ((f p h1).symm.trans (g p h2)) (by decide)
  · rintro p ⟨⟨h1, -⟩, -⟩
    exact absurd h1 (by decide)
  · rintro p ⟨h1, -, h2⟩
    rw [f p h1] at h2
    exact absurd h2 (by decide)

/-- Filling (0, 0, 0) and copying (1, 0, 0) to (20, 0, 0), in both orders. -/
example : ∃ t' u', RanAll (Toy.codec id) [(fillArgs false, []), (cloneArgs 1 19, [])] (pairMap 0 (Toy.block 28)) t' ∧
    RanAll (Toy.codec id) [(cloneArgs 1 19, []), (fillArgs false, [])] (pairMap 0 (Toy.block 28)) u' ∧
    nodesOf (Toy.codec id) u' = nodesOf (Toy.codec id) t' ∧ restsOf (Toy.codec id) u' = restsOf (Toy.codec id) t' := by
  obtain ⟨hg, hb, hp⟩ := pair_ok
  obtain ⟨t1, r1⟩ := fill_ran hg hb (by omega)
  obtain ⟨k1, -⟩ := means_every hg hb hp (fun e => absurd e (by decide)) (by omega) (by omega) fill_any r1
  obtain ⟨t2, r2⟩ := clone_ran k1.good k1.usual (by omega) 1 19 (by omega) (by omega) (by omega)
  obtain ⟨u1, q1⟩ := clone_ran hg hb (by omega) 1 19 (by omega) (by omega) (by omega)
  obtain ⟨l1, -⟩ := means_every hg hb hp (fun e => absurd e (by decide)) (by omega) (by omega) (cloneArgs_any 1 19) q1
  obtain ⟨u2, q2⟩ := fill_ran l1.good l1.usual (by omega)
  have h1 := RanAll.cons r1 (.cons r2 .nil)
  have h2 := RanAll.cons q1 (.cons q2 .nil)
  refine ⟨t2, u2, h1, h2, C113_order _ _ _ _ _ _ 4095 hg hb hp ?_ (by omega) (by decide) (.swap _ _ _) ?_ h1 h2⟩
  · simp only [List.mem_cons, List.not_mem_nil, or_false, forall_eq_or_imp, forall_eq]
    exact ⟨⟨fill_any, fun e => absurd e (by decide)⟩, cloneArgs_any 1 19, fun e => absurd e (by decide)⟩
  · simp only [List.pairwise_cons, List.mem_singleton, forall_eq, List.not_mem_nil, false_implies, implies_true,
      List.Pairwise.nil, and_true]
    exact fill_clone_apart

/-- Air is replaced at (0, 0, 0), then everywhere else. -/
example : ∃ t' t'' u', Ran (Toy.codec id) (within replArgs (some oneNode) false) [] (pairMap 0 (Toy.block 28)) t' ∧
    Ran (Toy.codec id) (within replArgs (some oneNode) true) [] t' t'' ∧
    Ran (Toy.codec id) (within replArgs none false) [] (pairMap 0 (Toy.block 28)) u' ∧
    nodesOf (Toy.codec id) t'' = nodesOf (Toy.codec id) u' ∧ restsOf (Toy.codec id) t'' = restsOf (Toy.codec id) u' := by
  obtain ⟨hg, hb, hp⟩ := pair_ok
  have a1 : AreaOk (some oneNode) := by intro a h; cases h; decide
  have a0 : AreaOk none := by intro a h; cases h
  obtain ⟨t1, r1⟩ := repl_ran hg hb (by omega) (some oneNode) false (.inr rfl)
  obtain ⟨k1, -⟩ := means_every hg hb hp (fun e => absurd e (by decide)) (by omega) (by omega) (repl_any _ _ a1) r1
  obtain ⟨t2, r2⟩ := repl_ran k1.good k1.usual (by omega) (some oneNode) true (.inr rfl)
  obtain ⟨u1, q1⟩ := repl_ran hg hb (by omega) none false (.inl ⟨rfl, rfl⟩)
  exact ⟨t1, t2, u1, r1, r2, q1, C113_halves _ replArgs oneNode [] _ _ _ _ 4095 hg hb hp (by omega) (by omega) (by decide)
    (repl_any _ _ a1) (repl_any _ _ a1) (repl_any _ _ a0) r1 r2 q1⟩

/-- `deleteobjects`, all of them. -/
def emptyArgs : InstArgs := runArgs false "deleteobjects" "map" none

theorem empty_any (area : Option Area) (inv : Bool) (h : AreaOk area) : AnyArgs (within emptyArgs area inv) :=
  ⟨(by unfold Needs; trivial), h, (by intro n h; cases h),
    fun e => absurd (show "deleteobjects" = "replaceininv" from e) (by decide)⟩

theorem empty_ran {t : Table} (hg : GoodTable t)
    (area : Option Area) (inv : Bool) (h : area = none ∧ inv = false ∨ area = some oneNode) :
    ∃ t', Ran (Toy.codec id) (within emptyArgs area inv) [] t t' := by
  have ho : AreaOk area := by
    rcases h with ⟨rfl, -⟩ | rfl
    · intro a h; cases h
    · intro a h; cases h; decide
  have hv : verifyArgs (within emptyArgs area inv) = none := by
    rcases h with ⟨rfl, rfl⟩ | rfl
    · decide
    · cases inv <;> decide
  have hE : EnvOk { editEnv t with build := .release } := ⟨Toy.lawful id, Toy.fullWrites, fun _ => Toy.ord_lawful⟩
  obtain ⟨t3, e3, h3⟩ := C43_deleteobjects_completes { editEnv t with build := .release } (within emptyArgs area inv) _
    hE (fun _ => rfl) (editEnv_file _) ⟨_, rfl⟩ hg
    (by rw [← verifyArgs_iff]; exact hv) rfl ho (.inl rfl) rfl (by intro h; cases h) (by intro h; cases h)
  exact ⟨t3, _, e3, hE, rfl, h3,
    fun e => absurd (show "deleteobjects" = "clone" ∨ "deleteobjects" = "overlay" from e) (by decide),
    fun e => absurd (show "deleteobjects" = "overlay" from e) (by decide)⟩

/-- The object at (0, 0, 0) is deleted by the first of both runs. -/
example : AtHome (restsOf (Toy.codec id) (oneMap (Toy.block 28))) ∧
    ∃ t' t'' u', Ran (Toy.codec id) (within emptyArgs (some oneNode) false) [] (oneMap (Toy.block 28)) t' ∧
    Ran (Toy.codec id) (within emptyArgs (some oneNode) true) [] t' t'' ∧
    Ran (Toy.codec id) (within emptyArgs none false) [] (oneMap (Toy.block 28)) u' ∧
    restsOf (Toy.codec id) t'' = restsOf (Toy.codec id) u' := by
  have hw := Toy.block_wf 28 (by omega)
  have hg := oneMap_good (Toy.block 28)
  have hb := oneMap_all hw toy_usual
  have hp := oneMap_all hw toy_plain
  have a1 : AreaOk (some oneNode) := by intro a h; cases h; decide
  have a0 : AreaOk none := by intro a h; cases h
  have home : AtHome (restsOf (Toy.codec id) (oneMap (Toy.block 28))) := by
    intro bp r hr o ho
    obtain ⟨hv, d, b, h1, h2, rfl⟩ := (restsOf_some hg).1 hr
    obtain ⟨h1, h3⟩ := Prod.mk.inj (List.mem_singleton.1 h1)
    rw [h3] at h2
    rw [represents_unique h2 (Toy.data_rep hw)] at ho
    have e := keyOf_inj bp ⟨0, 0, 0⟩ hv (by unfold ValidBlockPos; decide) (h1.trans (by decide))
    subst e
    have ho : o ∈ [(⟨7, ⟨-10, 20, 30⟩, ascii "x"⟩ : StaticObject)] := ho
    rw [List.mem_singleton] at ho
    subst ho
    refine ⟨⟨0, 0, 0⟩, by unfold AtNode; decide, by unfold InBlock; decide⟩
  refine ⟨home, ?_⟩
  obtain ⟨t1, r1⟩ := empty_ran hg (some oneNode) false (.inr rfl)
  obtain ⟨k1, -⟩ := means_every hg hb hp (fun e => absurd e (by decide)) (by omega) (by omega) (empty_any _ _ a1) r1
  obtain ⟨t2, r2⟩ := empty_ran k1.good (some oneNode) true (.inr rfl)
  obtain ⟨u1, q1⟩ := empty_ran hg none false (.inl ⟨rfl, rfl⟩)
  exact ⟨t1, t2, u1, r1, r2, q1, (C113_halves_objects _ emptyArgs oneNode [] _ _ _ _ 4095 hg hb hp (by omega) (by omega) rfl home
    (empty_any _ _ a1) (empty_any _ _ a1) (empty_any _ _ a0) r1 r2 q1).2⟩

open Classical in
/-- An object that is not in the block it is kept in may escape both runs. -/
theorem C113_objects_false : ∃ c args a s t t' t'' u' K, GoodTable t ∧ AllBlocks c t (Usual K) ∧ AllBlocks c t PlainInvs ∧
    4095 ≤ K ∧ K ≤ 7279 ∧ args.command = "deleteobjects" ∧ AnyArgs (within args (some a) false) ∧
    AnyArgs (within args (some a) true) ∧ AnyArgs (within args none false) ∧ Ran c (within args (some a) false) s t t' ∧
    Ran c (within args (some a) true) s t' t'' ∧ Ran c (within args none false) s t u' ∧
    restsOf c t'' ≠ restsOf c u' := by
  obtain ⟨hg, hb, hp⟩ := pair_ok
  have hw := Toy.block_wf 28 (by omega)
  have a1 : AreaOk (some oneNode) := by intro a h; cases h; decide
  have a0 : AreaOk none := by intro a h; cases h
  obtain ⟨t1, r1⟩ := empty_ran hg (some oneNode) false (.inr rfl)
  obtain ⟨k1, kp⟩ := means_every hg hb hp (fun e => absurd e (by decide)) (by omega) (by omega) (empty_any _ _ a1) r1
  obtain ⟨t2, r2⟩ := empty_ran k1.good (some oneNode) true (.inr rfl)
  obtain ⟨u1, q1⟩ := empty_ran hg none false (.inl ⟨rfl, rfl⟩)
  refine ⟨_, emptyArgs, oneNode, [], _, t1, t2, u1, 4095, hg, hb, hp, by omega, by omega, rfl, empty_any _ _ a1,
    empty_any _ _ a1, empty_any _ _ a0, r1, r2, q1, fun e => ?_⟩
  have b1 : HasBlock (Toy.codec id) (pairMap 0 (Toy.block 28)) ⟨1, 0, 0⟩ (stored (Toy.block 28)) :=
    ⟨by unfold ValidBlockPos; decide, _, List.mem_cons_of_mem _ List.mem_cons_self, Toy.data_rep hw⟩
  have rest : ∀ (area : Option Area) (inv : Bool) (S W : Rests) (bp : Vec3), restMeaning (within emptyArgs area inv) S W bp =
      (W bp).map fun r => { r with objects := r.objects.filter fun o => ¬ ObjectGoes (within emptyArgs area inv) bp o } := by
    intro area inv S W bp
    unfold restMeaning
    rfl
  have e := congrFun e ⟨1, 0, 0⟩
  rw [C97_run _ (within emptyArgs (some oneNode) true) [] _ _ (4095 + 1) k1.good k1.usual (fun _ => kp)
        (fun e => absurd e (by decide)) (by omega) (by omega) (empty_any _ _ a1) r2,
      C97_run _ (within emptyArgs (some oneNode) false) [] _ _ 4095 hg hb (fun _ => hp)
        (fun e => absurd e (by decide)) (by omega) (by omega) (empty_any _ _ a1) r1,
      C97_run _ (within emptyArgs none false) [] _ _ 4095 hg hb (fun _ => hp)
        (fun e => absurd e (by decide)) (by omega) (by omega) (empty_any _ _ a0) q1, rest, rest, rest,
      restsOf_block hg b1] at e
  have ho : (restAt (stored (Toy.block 28))).objects = [⟨7, ⟨-10, 20, 30⟩, ascii "x"⟩] := rfl
  have at0 : AtNode ⟨7, ⟨-10, 20, 30⟩, ascii "x"⟩ ⟨0, 0, 0⟩ := by unfold AtNode; decide
  have g0 : ObjectGoes (within emptyArgs none false) ⟨1, 0, 0⟩ ⟨7, ⟨-10, 20, 30⟩, ascii "x"⟩ :=
    ⟨⟨⟨16, 0, 0⟩, by unfold InBlock; decide, trivial⟩, ⟨⟨0, 0, 0⟩, at0, trivial⟩, nofun⟩
  have g1 : ¬ ObjectGoes (within emptyArgs (some oneNode) false) ⟨1, 0, 0⟩ ⟨7, ⟨-10, 20, 30⟩, ascii "x"⟩ := by
    rintro ⟨⟨⟨x, y, z⟩, hp, hs⟩, -⟩
    have hs : InBox (⟨0, 0, 0⟩ : Vec3) ⟨0, 0, 0⟩ ⟨x, y, z⟩ := hs.2 rfl
    unfold InBox at hs
    unfold InBlock at hp
    simp only at hs hp
    omega
  have g2 : ¬ ObjectGoes (within emptyArgs (some oneNode) true) ⟨1, 0, 0⟩ ⟨7, ⟨-10, 20, 30⟩, ascii "x"⟩ := by
    rintro ⟨-, ⟨p, hp, hs⟩, -⟩
    rw [← atNode_unique at0 hp] at hs
    exact nomatch hs.1 (by unfold InBox oneNode; decide)
  simp only [Option.map_some, Option.some.injEq, List.filter_filter] at e
  have e := congrArg BlockRest.objects e
  simp only [ho] at e
  simp [g0, g1, g2] at e

/-- The node (0, 0, 0) is copied to (18, 0, 0), then back, or on to (23, 0, 0), or there at once. -/
example : ∃ t1 t2 t3 u, Ran (Toy.codec id) (cloneArgs 0 18) [] (pairMap 0 (Toy.block 28)) t1 ∧
    Ran (Toy.codec id) (cloneArgs 18 (-18)) [] t1 t2 ∧ Ran (Toy.codec id) (cloneArgs 18 5) [] t1 t3 ∧
    Ran (Toy.codec id) (cloneArgs 0 23) [] (pairMap 0 (Toy.block 28)) u ∧
    nodesOf (Toy.codec id) t2 ⟨0, 0, 0⟩ = nodesOf (Toy.codec id) (pairMap 0 (Toy.block 28)) ⟨0, 0, 0⟩ ∧
    nodesOf (Toy.codec id) t3 ⟨23, 0, 0⟩ = nodesOf (Toy.codec id) u ⟨23, 0, 0⟩ := by
  obtain ⟨hg, hb, hp⟩ := pair_ok
  have hw := Toy.block_wf 28 (by omega)
  have b0 : HasBlock (Toy.codec id) (pairMap 0 (Toy.block 28)) ⟨0, 0, 0⟩ (stored (Toy.block 28)) :=
    ⟨by unfold ValidBlockPos; decide, _, List.mem_cons_self, Toy.data_rep hw⟩
  have b1 : HasBlock (Toy.codec id) (pairMap 0 (Toy.block 28)) ⟨1, 0, 0⟩ (stored (Toy.block 28)) :=
    ⟨by unfold ValidBlockPos; decide, _, List.mem_cons_of_mem _ List.mem_cons_self, Toy.data_rep hw⟩
  have n0 : (nodesOf (Toy.codec id) (pairMap 0 (Toy.block 28)) ⟨0, 0, 0⟩).isSome :=
    Option.isSome_of_eq_some (nodesOf_block (i := 0) hg b0 (by omega))
  have n1 : (nodesOf (Toy.codec id) (pairMap 0 (Toy.block 28)) ⟨18, 0, 0⟩).isSome :=
    Option.isSome_of_eq_some (nodesOf_block (i := 2) hg b1 (by omega))
  obtain ⟨t1, r1⟩ := clone_ran hg hb (by omega) 0 18 (by omega) (by omega) (by omega)
  have c0 := cloneArgs_any 0 18
  obtain ⟨k1, -⟩ := means_every hg hb hp (fun e => absurd e (by decide)) (by omega) (by omega) c0 r1
  obtain ⟨t2, r2⟩ := clone_ran k1.good k1.usual (by omega) 18 (-18) (by omega) (by omega) (by omega)
  obtain ⟨t3, r3⟩ := clone_ran k1.good k1.usual (by omega) 18 5 (by omega) (by omega) (by omega)
  obtain ⟨u, q⟩ := clone_ran hg hb (by omega) 0 23 (by omega) (by omega) (by omega)
  refine ⟨t1, t2, t3, u, r1, r2, r3, q, ?_, ?_⟩
  · exact C113_back _ (cloneArgs 0 18) (cloneArgs 18 (-18)) [] [] _ _ _ ⟨⟨0, 0, 0⟩, ⟨0, 0, 0⟩⟩ ⟨18, 0, 0⟩ 4095 hg hb hp (by omega)
      (by omega) c0 (cloneArgs_any 18 (-18)) rfl rfl rfl rfl rfl rfl r1 r2 ⟨0, 0, 0⟩ (by decide) (by decide) (by decide)
      (.inl n1)
  · exact C113_on _ (cloneArgs 0 23) (cloneArgs 0 18) (cloneArgs 18 5) [] [] [] _ _ _ _ ⟨⟨0, 0, 0⟩, ⟨0, 0, 0⟩⟩ ⟨18, 0, 0⟩
      ⟨5, 0, 0⟩ 4095 hg hb hp (by omega) (by omega) (cloneArgs_any 0 23) c0 (cloneArgs_any 18 5) rfl rfl rfl
      rfl rfl rfl rfl rfl rfl r1 r3 q ⟨0, 0, 0⟩ (by decide) n0 n1 (by decide) (by decide)

end MapEditr
