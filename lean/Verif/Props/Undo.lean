import Verif.Proof.Undo
import Verif.Props.Tidy
import Verif.Props.OverlayTwice
/-!
# Property C92: overlaying the old map undoes a change
-/

namespace MapEditr
open Spec

theorem undo_run {env2 : Env} {args2 : InstArgs} {c : Codec} {area : Option Area} {invert : Bool}
    {t t' t'' : Table} {evs2 : List Event} (hg : GoodTable t) (ha : AreaOk area) (hcodec : env2.codec = c)
    (h : Confined c area invert t t') (r : Restores env2 args2 area invert t)
    (hb : AllBlocks c t (Mild env2.build)) (hb' : AllBlocks c t' (Mild env2.build))
    (h2 : Completes env2 args2 t' t'' evs2) : Alike c t t'' := by
  subst hcodec
  exact h.undo hg (r.overlaid ha (h.good hg) hg hb' hb h2)

/-- An edit of blocks that leaves alone the nodes that are not selected, and if `rest` what is stored beside
the nodes. -/
def SoftEdit (c : Codec) (area : Option Area) (invert : Bool) (rest : Prop) (t t' : Table) : Prop :=
  ∃ R : Vec3 → MapBlock → MapBlock → Prop, Edited c area invert t t' R ∧
    (∀ bp b b', R bp b b' → SameHead b b' ∧ (rest → SameRest b b') ∧
      ∀ i, i < 4096 → ¬ Selected area invert (posAt bp i) → NodeAs b' i b i) ∧
    ∀ bp b b', Wf b' → R bp b b' → (Covered b → Covered b') ∧ (SmallIds b → SmallIds b') ∧
      (b' = b ∨ Written b') ∧ ∀ i, metaOf b i = none → metaOf b' i = none

theorem undo_soft {env2 : Env} {args2 : InstArgs} {c : Codec} {area : Option Area} {invert : Bool} {rest : Prop}
    {t t' t'' : Table} {evs2 : List Event} (hl : c.Lawful)
    (hg : GoodTable t) (ha : AreaOk area) (hcodec : env2.codec = c)
    (h : SoftEdit c area invert rest t t') (hrest : rest ∨ area = none ∨ invert = true)
    (r : Restores env2 args2 area invert t) (hgen : AllBlocks c t Generated)
    (hb : AllBlocks c t (Mild env2.build)) (h2 : Completes env2 args2 t' t'' evs2) : Alike c t t'' := by
  obtain ⟨R, h, hR, hM⟩ := h
  refine undo_run hg ha hcodec (confined_edited hl h hgen fun bp b b' hx => ?_) r hb ?_ h2
  · obtain ⟨g1, g2, g3⟩ := hR bp b b' hx
    refine ⟨g1, fun hf hp => ?_, g3⟩
    rcases hrest with hi | hi | hi
    · exact g2 hi
    · rw [hi] at hp
      obtain ⟨-, q, -, hq⟩ := hp
      exact absurd trivial hq
    · rw [hi] at hf
      cases hf
  · intro k d' b' hd hr
    obtain ⟨bp, h1, h2, -⟩ := row_pos (goodTable_of_edited hg h) hd
    simp only at h2
    subst h2
    obtain ⟨d, b, f1, f2, f3⟩ := edited_back h h1 hd hr
    have hw := wf_of_represents hr
    obtain ⟨-, g1, g2, g3⟩ := hM _ _ _ hw f3
    have hmb := hb _ _ _ f1 f2
    exact ⟨metaRoom_written hw g2 hmb.room g3, fun hx => g1 (hmb.small hx)⟩

theorem SoftEdit.tame {c : Codec} {area : Option Area} {invert : Bool} {rest : Prop} {t t' : Table}
    (hg : GoodTable t) (h : SoftEdit c area invert rest t t') (hb : AllBlocks c t Tame) : AllBlocks c t' Tame := by
  obtain ⟨R, h, -, hM⟩ := h
  intro k d' b' hd hr
  obtain ⟨bp, h1, h2, -⟩ := row_pos (goodTable_of_edited hg h) hd
  simp only at h2
  subst h2
  obtain ⟨d, b, f1, f2, f3⟩ := edited_back h h1 hd hr
  have hw := wf_of_represents hr
  obtain ⟨g0, g1, g2, g3⟩ := hM _ _ _ hw f3
  have hmb := hb _ _ _ f1 f2
  exact ⟨g0 hmb.covered, g1 hmb.small, metaRoom_written hw g2 hmb.room g3⟩

theorem sameNodes_ids {b b' : MapBlock} (h1 : b'.nimap = b.nimap) (h2 : b'.nd.nodes = b.nd.nodes) :
    (Covered b → Covered b') ∧ (SmallIds b → SmallIds b') :=
  ⟨fun hs => by unfold Covered; rw [h1, h2]; exact hs, fun hs => by unfold SmallIds; rw [h1]; exact hs⟩

theorem sameMeta_none {b b' : MapBlock} (h : SameMeta b b') (i : Nat) (hn : metaOf b i = none) : metaOf b' i = none :=
  savedMeta_none (hn ▸ h i)

theorem fill_soft (env : Env) (args : InstArgs) (t t' : Table) (evs : List Event) (a : Area)
    (node : String) (hE : EnvOk env) (hg : GoodTable t) (hc : args.command = "fill")
    (harea : args.area = some a) (ha : a.isValid = true) (hnode : args.newNode = some node)
    (h : Completes env args t t' evs) : SoftEdit env.codec args.area args.invert True t t' := by
  have hao : AreaOk args.area := by rw [harea]; intro x hx; cases hx; exact ha
  have E := effect_edited hE hg hao h hc fill_command
    (by decide) (fill_eq env args a node harea hnode)
    (by rw [harea]; exact (fill_effect env a args.invert (toBytes node) t ha).written)
  rw [harea] at E hao ⊢
  refine ⟨_, E, ?_, ?_⟩
  · rintro bp b b' ⟨⟨⟨h1, h2, h3, h4, h5, h6, h7⟩, -⟩, -⟩
    exact ⟨h1, fun _ => ⟨h1, h3, h4⟩, fun i hi hs => nodeAs_named ⟨h1, h2, h3, h4, h5, h6⟩ ((h7 i hi).2 hs)⟩
  · rintro bp b b' hw ⟨⟨⟨h1, h2, -⟩, h3, h4⟩, hx⟩
    refine and_assoc.1 ⟨?_, hx, sameMeta_none h2⟩
    by_cases hi : ∃ i, i < 4096 ∧ Selected (some a) args.invert (posAt bp i)
    · obtain ⟨-, h4, h5, -⟩ := h3 hi
      exact ⟨fun _ => named_covered h4, fun _ e he => Nat.le_trans (h5 e he) (by decide)⟩
    · rw [h4 fun i hi' hs => hi ⟨i, hi', hs⟩]
      exact ⟨id, id⟩

/-- `fill`, then `overlay` of the map as it was before, with the same area. -/
theorem C92_fill (env env2 : Env) (args args2 : InstArgs) (t t' t'' : Table) (evs evs2 : List Event) (a : Area)
    (node : String) (hE : EnvOk env) (hg : GoodTable t) (hc : args.command = "fill")
    (harea : args.area = some a) (ha : a.isValid = true) (hnode : args.newNode = some node)
    (hgen : AllBlocks env.codec t Generated) (hb : AllBlocks env.codec t (Mild env2.build))
    (hcodec : env2.codec = env.codec) (r : Restores env2 args2 args.area args.invert t)
    (h : Completes env args t t' evs) (h2 : Completes env2 args2 t' t'' evs2) : Alike env.codec t t'' :=
  undo_soft hE.codec hg (by rw [harea]; intro x hx; cases hx; exact ha) hcodec
    (fill_soft env args t t' evs a node hE hg hc harea ha hnode h) (.inl trivial) r hgen hb h2

theorem setparam2_soft (env : Env) (args : InstArgs) (t t' : Table) (evs : List Event)
    (val : UInt8) (hE : EnvOk env) (hg : GoodTable t) (hc : args.command = "setparam2")
    (hv : args.param2 = some val) (ha : AreaOk args.area)
    (h : Completes env args t t' evs) : SoftEdit env.codec args.area args.invert True t t' := by
  have E := effect_edited hE hg ha h hc setParam2_command (by decide) (setParam2_eq env args val hv)
    (setParam2_change env args val t ha (fun b => IsFirst b (args.node.map toBytes)) fun _ _ _ _ _ _ => Iff.rfl).effect.written
  refine ⟨_, E, ?_, ?_⟩
  · rintro bp b b' ⟨⟨h1, h2, h3, h4, h5, h6, h7, h8⟩, -⟩
    refine ⟨h1, fun _ => ⟨h1, h3, h4⟩, fun i hi hs => ⟨fun n hn => ?_, by rw [h7], ?_, fun q _ => ?_⟩⟩
    · unfold nodeName at hn ⊢
      rw [h5, h6]
      exact hn
    · rw [h8 i hi, if_neg fun hx => hs hx.1]
    · rcases h2 (4096 * q + i) with h | ⟨h, h'⟩
      · exact .inl h
      · exact .inr ⟨h1.1 ▸ h, h'⟩
  · rintro bp b b' hw ⟨⟨h1, h2, h3, h4, h5, h6, -⟩, hx⟩
    exact ⟨(sameNodes_ids h5 h6).1, (sameNodes_ids h5 h6).2, hx, sameMeta_none h2⟩

/-- `setparam2`. -/
theorem C92_setparam2 (env env2 : Env) (args args2 : InstArgs) (t t' t'' : Table) (evs evs2 : List Event)
    (val : UInt8) (hE : EnvOk env) (hg : GoodTable t) (hc : args.command = "setparam2")
    (hv : args.param2 = some val) (ha : AreaOk args.area)
    (hgen : AllBlocks env.codec t Generated) (hb : AllBlocks env.codec t (Mild env2.build))
    (hcodec : env2.codec = env.codec) (r : Restores env2 args2 args.area args.invert t)
    (h : Completes env args t t' evs) (h2 : Completes env2 args2 t' t'' evs2) : Alike env.codec t t'' :=
  undo_soft hE.codec hg ha hcodec (setparam2_soft env args t t' evs val hE hg hc hv ha h) (.inl trivial) r hgen hb h2

theorem mod_index {q i : Nat} (hi : i < 4096) : (4096 * q + i) % 4096 = i := by omega

theorem deletemeta_soft (env : Env) (args : InstArgs) (t t' : Table) (evs : List Event)
    (hE : EnvOk env) (hg : GoodTable t) (hc : args.command = "deletemeta") (ha : AreaOk args.area)
    (h : Completes env args t t' evs) : SoftEdit env.codec args.area args.invert True t t' := by
  have E := effect_edited hE hg ha h hc deleteMeta_command (by decide) (deleteMetadata_eq env args)
    (deleteMeta_effect env args t (fun b => IsFirst b (args.node.map toBytes)) fun _ _ _ _ _ _ => Iff.rfl).written
  refine ⟨_, E, ?_, ?_⟩
  · rintro bp b b' ⟨⟨h1, h2, h3, h4, h5⟩, -⟩
    refine ⟨h1, fun _ => ⟨h1, h3, h4⟩, fun i hi hs => nodeAs_nodes h1 h2 fun q _ => ?_⟩
    have := h5 (4096 * q + i)
    rwa [if_neg fun hx => hs (mod_index hi ▸ hx.1)] at this
  · rintro bp b b' hw ⟨⟨h1, h2, h3, h4, h5⟩, hx⟩
    refine ⟨(sameNodes_ids h2.2 (congrArg _ h2.1)).1, (sameNodes_ids h2.2 (congrArg _ h2.1)).2, hx, fun i hn => ?_⟩
    have := h5 i
    rw [hn, ite_self] at this
    exact savedMeta_none this

/-- `deletemeta`. -/
theorem C92_deletemeta (env env2 : Env) (args args2 : InstArgs) (t t' t'' : Table) (evs evs2 : List Event)
    (hE : EnvOk env) (hg : GoodTable t) (hc : args.command = "deletemeta") (ha : AreaOk args.area)
    (hgen : AllBlocks env.codec t Generated) (hb : AllBlocks env.codec t (Mild env2.build))
    (hcodec : env2.codec = env.codec) (r : Restores env2 args2 args.area args.invert t)
    (h : Completes env args t t' evs) (h2 : Completes env2 args2 t' t'' evs2) : Alike env.codec t t'' :=
  undo_soft hE.codec hg ha hcodec (deletemeta_soft env args t t' evs hE hg hc ha h) (.inl trivial) r hgen hb h2

theorem setmetavar_soft (env : Env) (args : InstArgs) (t t' : Table) (evs : List Event)
    (key : String) (hE : EnvOk env) (hg : GoodTable t) (hc : args.command = "setmetavar") (ha : AreaOk args.area)
    (hk : args.key = some key)
    (h : Completes env args t t' evs) : SoftEdit env.codec args.area args.invert True t t' := by
  have E := effect_edited hE hg ha h hc setMetaVar_command (by decide) (setMetaVar_eq env args hk)
    (setMetaVar_effect (Q := fun b => AmongFirst b (args.nodes.map toBytes)) hE fun _ _ _ _ _ _ => Iff.rfl).written
  refine ⟨_, E, ?_, ?_⟩
  · rintro bp b b' ⟨⟨h1, h2, h3, h4, h5⟩, -⟩
    refine ⟨h1, fun _ => ⟨h1, h3, h4⟩, fun i hi hs => nodeAs_nodes h1 h2 fun q _ => ?_⟩
    have := h5 (4096 * q + i)
    rwa [if_neg fun hx => hs (mod_index hi ▸ hx.1)] at this
  · rintro bp b b' hw ⟨⟨h1, h2, h3, h4, h5⟩, hx⟩
    refine ⟨(sameNodes_ids h2.2 (congrArg _ h2.1)).1, (sameNodes_ids h2.2 (congrArg _ h2.1)).2, hx, fun i hn => ?_⟩
    have := h5 i
    rw [hn] at this
    refine savedMeta_none (b := b) ?_
    split at this <;> exact this

/-- `setmetavar`. -/
theorem C92_setmetavar (env env2 : Env) (args args2 : InstArgs) (t t' t'' : Table) (evs evs2 : List Event)
    (key : String) (hE : EnvOk env) (hg : GoodTable t) (hc : args.command = "setmetavar") (ha : AreaOk args.area)
    (hk : args.key = some key)
    (hgen : AllBlocks env.codec t Generated) (hb : AllBlocks env.codec t (Mild env2.build))
    (hcodec : env2.codec = env.codec) (r : Restores env2 args2 args.area args.invert t)
    (h : Completes env args t t' evs) (h2 : Completes env2 args2 t' t'' evs2) : Alike env.codec t t'' :=
  undo_soft hE.codec hg ha hcodec (setmetavar_soft env args t t' evs key hE hg hc ha hk h) (.inl trivial) r hgen hb h2

theorem replaceininv_soft (env : Env) (args : InstArgs) (t t' : Table) (evs : List Event)
    (item : String) (hE : EnvOk env) (hg : GoodTable t) (hc : args.command = "replaceininv") (ha : AreaOk args.area)
    (hk : args.item = some item) (hw : ¬ endWord <:+ newItemOf args (toBytes item))
    (hv : AllBlocks env.codec t (InvsGood (toBytes item)))
    (h : Completes env args t t' evs) : SoftEdit env.codec args.area args.invert True t t' := by
  have hbytes := item_bytes (completes_args h (by rw [hc]; decide)) hk
  have E := effect_edited hE hg ha h hc replaceInInv_command (by decide) (replaceInInv_eq env args hk)
    (replaceInInv_effect (Q := fun b => AmongFirst b (args.nodes.map toBytes)) (invCount_counts _)
      (hbytes 32 (.inr rfl)).1 (hbytes 10 (.inl rfl)).2 hw hv fun _ _ _ _ _ _ => Iff.rfl).written
  refine ⟨_, E, ?_, ?_⟩
  · rintro bp b b' ⟨⟨h1, h2, h3, h4, h5⟩, -⟩
    refine ⟨h1, fun _ => ⟨h1, h3, h4⟩, fun i hi hs => nodeAs_nodes h1 h2 fun q _ => ?_⟩
    have := h5 (4096 * q + i)
    rwa [if_neg fun hx => hs (mod_index hi ▸ hx.1)] at this
  · rintro bp b b' hw ⟨⟨h1, h2, h3, h4, h5⟩, hx⟩
    refine ⟨(sameNodes_ids h2.2 (congrArg _ h2.1)).1, (sameNodes_ids h2.2 (congrArg _ h2.1)).2, hx, fun i hn => ?_⟩
    have := h5 i
    split at this
    · exact this.1 hn
    · rw [hn] at this
      exact savedMeta_none this

/-- `replaceininv`. -/
theorem C92_replaceininv (env env2 : Env) (args args2 : InstArgs) (t t' t'' : Table) (evs evs2 : List Event)
    (item : String) (hE : EnvOk env) (hg : GoodTable t) (hc : args.command = "replaceininv") (ha : AreaOk args.area)
    (hk : args.item = some item) (hw : ¬ endWord <:+ newItemOf args (toBytes item))
    (hv : AllBlocks env.codec t (InvsGood (toBytes item)))
    (hgen : AllBlocks env.codec t Generated) (hb : AllBlocks env.codec t (Mild env2.build))
    (hcodec : env2.codec = env.codec) (r : Restores env2 args2 args.area args.invert t)
    (h : Completes env args t t' evs) (h2 : Completes env2 args2 t' t'' evs2) : Alike env.codec t t'' :=
  undo_soft hE.codec hg ha hcodec (replaceininv_soft env args t t' evs item hE hg hc ha hk hw hv h) (.inl trivial) r hgen hb h2

theorem replacenodes_rooms {env : Env} {args : InstArgs} {t t' : Table} {evs : List Event} {old new : String}
    (hE : EnvOk env) (hg : GoodTable t) (hc : args.command = "replacenodes")
    (ha : AreaOk args.area) (ho : args.node = some old) (hn : args.newNode = some new)
    (hid : AllBlocks env.codec t (GoodIds env.build)) (hb : AllBlocks env.codec t MetaRoom)
    (h : Completes env args t t' evs) : AllBlocks env.codec t' MetaRoom := by
  have E := effect_edited hE hg ha h hc replaceNodes_command (by decide) (replaceNodes_eq env args ho hn)
    (replaceNodes_effect env args t (replace_differ hc ho hn h) ha id fun k d b h1 h2 => (hid k d b h1 h2).sound _).written
  intro k d' b' hd hr
  obtain ⟨bp, h1, h2, -⟩ := row_pos (goodTable_of_edited hg E) hd
  simp only at h2
  subst h2
  obtain ⟨d, b, f1, f2, ⟨⟨⟨-, f3, -⟩, -⟩, -⟩, f4⟩ := edited_back E h1 hd hr
  exact metaRoom_written (wf_of_represents hr) f4 (hb _ _ _ f1 f2) (sameMeta_none f3)

/-- `replacenodes`.  (It may need a further ID per block, so in a release build of `overlay` the IDs must be
small afterwards too.) -/
theorem C92_replacenodes (env env2 : Env) (args args2 : InstArgs) (t t' t'' : Table) (evs evs2 : List Event)
    (old new : String) (hE : EnvOk env) (hg : GoodTable t) (hc : args.command = "replacenodes")
    (ha : AreaOk args.area) (ho : args.node = some old) (hn : args.newNode = some new)
    (hid : AllBlocks env.codec t (GoodIds env.build))
    (hgen : AllBlocks env.codec t Generated) (hb : AllBlocks env.codec t (Mild env2.build))
    (hs : env2.build = .release → AllBlocks env.codec t' SmallIds)
    (hcodec : env2.codec = env.codec) (r : Restores env2 args2 args.area args.invert t)
    (h : Completes env args t t' evs) (h2 : Completes env2 args2 t' t'' evs2) : Alike env.codec t t'' := by
  have hm := replacenodes_rooms hE hg hc ha ho hn hid (fun k d b h1 h2 => (hb k d b h1 h2).room) h
  refine undo_run hg ha hcodec (confined_edited hE.codec
    (C35_replacenodes_partial env args t t' evs old new hE hg hc ha ho hn hid h) hgen ?_) r hb
    (fun k d b h1 h2 => ⟨hm k d b h1 h2, fun hx => hs hx k d b h1 h2⟩) h2
  rintro bp b b' ⟨h1, h2⟩
  refine ⟨h1.1, fun _ _ => ⟨h1.1, h1.2.2.1, h1.2.2.2.1⟩, fun i hi hs => nodeAs_named h1 ?_⟩
  exact (h2 i hi).2.1 fun hx => hs hx.1

theorem deletetimers_soft (env : Env) (args : InstArgs) (t t' : Table) (evs : List Event)
    (hE : EnvOk env) (hg : GoodTable t) (hc : args.command = "deletetimers") (ha : AreaOk args.area)
    (h : Completes env args t t' evs) : SoftEdit env.codec args.area args.invert False t t' := by
  have E := effect_edited hE hg ha h hc deleteTimers_command (by decide) (deleteTimers_eq env args)
    (deleteTimers_effect env args t (fun b => IsFirst b (args.node.map toBytes)) fun _ _ _ _ _ _ => Iff.rfl).written
  refine ⟨_, E, ?_, ?_⟩
  · rintro bp b b' ⟨⟨h1, h2, h3, h4, -⟩, -⟩
    exact ⟨h1, nofun, fun i _ _ => nodeAs_nodes h1 h2 fun q _ => h3 _⟩
  · rintro bp b b' hw ⟨⟨h1, h2, h3, -⟩, hx⟩
    exact ⟨(sameNodes_ids h2.2 (congrArg _ h2.1)).1, (sameNodes_ids h2.2 (congrArg _ h2.1)).2, hx, sameMeta_none h3⟩

/-- `deletetimers` and `deleteobjects` without area, or with an inverted one: what is stored beside the nodes
then comes from the old map too. -/
theorem C92_deletetimers_partial (env env2 : Env) (args args2 : InstArgs) (t t' t'' : Table) (evs evs2 : List Event)
    (hE : EnvOk env) (hg : GoodTable t) (hc : args.command = "deletetimers") (ha : AreaOk args.area)
    (hi : args.area = none ∨ args.invert = true)
    (hgen : AllBlocks env.codec t Generated) (hb : AllBlocks env.codec t (Mild env2.build))
    (hcodec : env2.codec = env.codec) (r : Restores env2 args2 args.area args.invert t)
    (h : Completes env args t t' evs) (h2 : Completes env2 args2 t' t'' evs2) : Alike env.codec t t'' :=
  undo_soft hE.codec hg ha hcodec (deletetimers_soft env args t t' evs hE hg hc ha h) (.inr hi) r hgen hb h2

theorem deleteobjects_soft (env : Env) (args : InstArgs) (t t' : Table) (evs : List Event)
    (hE : EnvOk env) (hg : GoodTable t) (hc : args.command = "deleteobjects") (ha : AreaOk args.area)
    (h : Completes env args t t' evs) : SoftEdit env.codec args.area args.invert False t t' := by
  have E := effect_edited hE hg ha h hc deleteObjects_command (by decide) (deleteObjects_eq env args)
    (deleteObjects_effect env args t (completes_args h (by rw [hc]; decide))).written
  refine ⟨_, E, ?_, ?_⟩
  · rintro bp b b' ⟨⟨h1, h2, h3, h4, -⟩, -⟩
    exact ⟨h1, nofun, fun i _ _ => nodeAs_nodes h1 h2 fun q _ => h3 _⟩
  · rintro bp b b' hw ⟨⟨h1, h2, h3, -⟩, hx⟩
    exact ⟨(sameNodes_ids h2.2 (congrArg _ h2.1)).1, (sameNodes_ids h2.2 (congrArg _ h2.1)).2, hx, sameMeta_none h3⟩

theorem C92_deleteobjects_partial (env env2 : Env) (args args2 : InstArgs) (t t' t'' : Table) (evs evs2 : List Event)
    (hE : EnvOk env) (hg : GoodTable t) (hc : args.command = "deleteobjects") (ha : AreaOk args.area)
    (hi : args.area = none ∨ args.invert = true)
    (hgen : AllBlocks env.codec t Generated) (hb : AllBlocks env.codec t (Mild env2.build))
    (hcodec : env2.codec = env.codec) (r : Restores env2 args2 args.area args.invert t)
    (h : Completes env args t t' evs) (h2 : Completes env2 args2 t' t'' evs2) : Alike env.codec t t'' :=
  undo_soft hE.codec hg ha hcodec (deleteobjects_soft env args t t' evs hE hg hc ha h) (.inr hi) r hgen hb h2

/-- `deleteblocks`: the blocks come back byte for byte, if their data says that they are generated. -/
theorem C92_deleteblocks (env env2 : Env) (args args2 : InstArgs) (t t' t'' : Table) (evs evs2 : List Event)
    (hg : GoodTable t) (hc : args.command = "deleteblocks") (ha : AreaOk args.area)
    (hgen : ∀ x ∈ t, GenData env.codec x.2) (hb : AllBlocks env.codec t (Mild env2.build))
    (hcodec : env2.codec = env.codec) (r : Restores env2 args2 args.area args.invert t)
    (h : Completes env args t t' evs) (h2 : Completes env2 args2 t' t'' evs2) : Alike env.codec t t'' := by
  obtain ⟨h3, h4, h5⟩ := C39_deleteblocks env args t t' evs hg hc ha h
  refine undo_run hg ha hcodec ⟨h3, ?_, ?_⟩ r hb ?_ h2
  · intro k hk
    obtain ⟨x, hx, rfl⟩ := List.mem_map.1 hk
    exact List.mem_map.2 ⟨x, h4 x hx, rfl⟩
  · intro bp d hbp hd
    by_cases hw : Whole args.area args.invert bp
    · exact .inr (.inl ⟨hw, hgen _ hd⟩)
    · refine .inl ((h5 bp d hbp hd).2 (Classical.byContradiction fun hn => hw fun p hp =>
        Classical.byContradiction fun hq => hn ⟨p, hp, hq⟩))
  · exact fun k d b hd hr => hb k d b (h4 _ hd) hr

/-! ## Copies -/

theorem confined_copied {c : Codec} (hl : c.Lawful) {src t t' : Table} {o : Vec3} {Sel Reach : Vec3 → Prop}
    {area : Option Area} (hs : ∀ p, Sel p ↔ Selected area false p)
    (h : CopiedOrKept c src t t' o Sel Reach) : Confined c area false t t' := by
  refine ⟨h.nodup, fun k hk => (h.keys k).1 hk, fun bp d hbp hd => ?_⟩
  by_cases hb : ∃ b, Represents c d b ∧ Generated b
  · obtain ⟨b, hb, hgb⟩ := hb
    by_cases hsel : ∃ p, InBlock bp p ∧ Selected area false p
    · by_cases hw : Whole area false bp
      · exact .inr (.inl ⟨hw, genData_of hl hb hgb⟩)
      · have hp : Partly area false bp := by
          refine ⟨hsel, Classical.byContradiction fun hn => hw fun p hp => Classical.byContradiction fun hq => hn ⟨p, hp, hq⟩⟩
        obtain ⟨d', b', h1, h2, h3, h4⟩ := h.good bp d b hbp hd hb hgb
        refine .inr (.inr ⟨hp, d', b, b', h1, hb, h2, ?_, h3.1.1, fun _ => h3, fun i hi hn => ?_⟩)
        · unfold Generated
          rw [h3.1.2.1]
          exact hgb
        · rcases h4 i hi with h5 | ⟨sb, h5, -⟩
          · exact h5
          · exact absurd ((hs _).1 h5) hn
    · exact .inl (h.outside bp d hbp hd fun p hp hq => hsel ⟨p, hp, (hs _).1 hq⟩)
  · exact .inl (h.bad _ d hd fun b hb' hgb => hb ⟨b, hb', hgb⟩)

theorem mild_rows {c : Codec} {t t' : Table} {bd : Build} (hb : AllBlocks c t (Mild bd))
    (h : ∀ r ∈ t', r ∈ t ∨ ∃ b, Represents c r.2 b ∧ Tidy b ∧ MetaRoom b ∧ Written b) : AllBlocks c t' (Mild bd) := by
  intro k d b hd hr
  rcases h _ hd with h | ⟨b', h1, h2, h3⟩
  · exact hb _ _ _ h hr
  · have := represents_unique h1 hr
    subst this
    exact ⟨h3.1, fun _ => h2.small (wf_of_represents hr)⟩

/-- `clone`, then `overlay` of the map as it was before, with the area of the copy.  The reads of `clone` may
have failed. -/
theorem C92_clone (env env2 : Env) (args args2 : InstArgs) (t t' t'' : Table) (evs evs2 : List Event) (a box : Area)
    (o : Vec3) (hE : EnvOk env) (hg : GoodTable t) (hc : args.command = "clone") (harea : args.area = some a)
    (ha : a.isValid = true) (hoff : args.offset = some o) (hbox : box.isValid = true)
    (hcopy : ∀ p, InBox box.min box.max p ↔ InBox a.min a.max (unshift p o))
    (hb : AllBlocks env.codec t (Mild .release))
    (hcodec : env2.codec = env.codec) (r : Restores env2 args2 (some box) false t)
    (h : Completes env args t t' evs) (h2 : Completes env2 args2 t' t'' evs2) : Alike env.codec t t'' := by
  have hm := fun bd => AllBlocks.mono hb fun b (hx : Mild .release b) => hx.any bd
  refine undo_run hg (by intro x hx; cases hx; exact hbox) hcodec (confined_copied hE.codec (fun p => ?_)
    (C83_clone env args t t' evs a o hE hg hc harea ha hoff (hm _) h)) r (hm _)
    (mild_rows (hm _) (clone_rows env args t t' evs a o hE hg hc harea ha hoff (hm _) h)) h2
  rw [selected_iff, ← hcopy]
  simp

/-- `overlay` with an offset. -/
theorem C92_overlay_offset (env env2 : Env) (args args2 : InstArgs) (t t' t'' : Table) (evs evs2 : List Event)
    (p : String) (g : DbFile) (a box : Area) (o : Vec3) (hE : EnvOk env) (hg : GoodTable t) (hgs : GoodTable g.table)
    (hc : args.command = "overlay") (hp : args.inputMapPath = some p) (hgf : mapFile env p = some g)
    (harea : args.area = some a) (ha : a.isValid = true) (hoff : args.offset = some o) (hz : o ≠ ⟨0, 0, 0⟩)
    (hbox : box.isValid = true) (hcopy : ∀ p, InBox box.min box.max p ↔ InBox a.min a.max (unshift p o))
    (hb : AllBlocks env.codec t (Mild .release)) (hbs : AllBlocks env.codec g.table (Mild .release))
    (hcodec : env2.codec = env.codec) (r : Restores env2 args2 (some box) false t)
    (h : Completes env args t t' evs) (h2 : Completes env2 args2 t' t'' evs2) : Alike env.codec t t'' := by
  have hm := fun bd => AllBlocks.mono hb fun b (hx : Mild .release b) => hx.any bd
  have hms := AllBlocks.mono hbs fun b (hx : Mild .release b) => hx.any env.build
  have hv : ∀ x, args.area = some x → x.isValid = true := by rw [harea]; intro x hx; cases hx; exact ha
  refine undo_run hg (by intro x hx; cases hx; exact hbox) hcodec (confined_copied hE.codec (fun q => ?_)
    (C83_overlay_offset env args t t' evs p g o hE hg hgs hc hp hgf hv hoff hz (hm _) hms h)) r (hm _)
    (mild_rows (hm _) (shifted_rows env args t t' evs p g o hE hg hc hp hgf hv hoff hz (hm _) hms h)) h2
  rw [harea, selected_iff, selected_iff, ← hcopy]

/-- `overlay` with an area that is not inverted, if it adds no blocks and all data is that of generated
blocks. -/
theorem C92_overlay_partial (env env2 : Env) (args args2 : InstArgs) (t t' t'' : Table) (evs evs2 : List Event)
    (p : String) (g : DbFile) (a : Area) (hE : EnvOk env) (hg : GoodTable t) (hgs : GoodTable g.table)
    (hc : args.command = "overlay") (hp : args.inputMapPath = some p) (hgf : mapFile env p = some g)
    (harea : args.area = some a) (ha : a.isValid = true) (hinv : args.invert = false)
    (hoff : args.offset = none ∨ args.offset = some ⟨0, 0, 0⟩)
    (hkeys : ∀ k ∈ g.table.map (·.1), k ∈ t.map (·.1)) (hgen : ∀ x ∈ t, GenData env.codec x.2)
    (hb : AllBlocks env.codec t (Mild .release)) (hbs : AllBlocks env.codec g.table (Mild .release))
    (hcodec : env2.codec = env.codec) (r : Restores env2 args2 args.area args.invert t)
    (h : Completes env args t t' evs) (h2 : Completes env2 args2 t' t'' evs2) : Alike env.codec t t'' := by
  have hm := fun bd => AllBlocks.mono hb fun b (hx : Mild .release b) => hx.any bd
  have hms := AllBlocks.mono hbs fun b (hx : Mild .release b) => hx.any env.build
  have hao : AreaOk args.area := by rw [harea]; intro x hx; cases hx; exact ha
  have O := C83_overlay env args t t' evs p g a hE hg hgs hc hp hgf harea ha hoff (hm _) hms h
  have hb' := overlay_mild env args t t' evs p g hE hg hgs hc hp hgf hao hoff hb hbs h
  refine undo_run hg hao hcodec ?_ r (hm _) (AllBlocks.mono hb' fun b (hx : Mild .release b) => hx.any env2.build) h2
  rw [harea]
  refine ⟨O.nodup, fun k hk => ?_, fun bp d hbp hd => ?_⟩
  · obtain ⟨⟨k0, d⟩, hd, rfl⟩ := List.mem_map.1 hk
    rcases O.added _ _ hd with h | ⟨h, -⟩
    · exact h
    · exact hkeys _ (List.mem_map.2 ⟨_, h, rfl⟩)
  · by_cases hov : Overridden env.codec g.table (some a) args.invert (fun _ => True) bp d
    · rcases hov with ⟨hw, -⟩ | ⟨hpt, sd, sb, b, k1, k2, -, k3, k4⟩
      · exact .inr (.inl ⟨hw, hgen _ hd⟩)
      · rcases O.part bp sd sb d b hbp k1 k2 trivial hd k3 k4 hpt with h5 | ⟨d', b', h5, h6, h7, -, h8⟩
        · exact .inl h5
        · rw [hinv] at h7
          have h7 : SameRest b b' := h7
          refine .inr (.inr ⟨hpt, d', b, b', h5, k3, h6, ?_, h7.1.1, fun _ => h7, fun i hi hn => ?_⟩)
          · unfold Generated
            rw [h7.1.2.1]
            exact k4
          · have := h8 i hi
            rwa [if_neg hn] at this
    · exact .inl (O.kept bp d hbp hd hov)

/-! ## Examples -/

/-- Lay the area `a` (with `inv`, everything else) of the map `other` over `map`. -/
def restoreArgs (a : Area) (inv : Bool) : InstArgs :=
  { runArgs false "overlay" "map" (some "other") with area := some a, invert := inv }

theorem restore_area (a : Area) (inv : Bool) {t t' : Table} (hargs : ¬ BadArgs (restoreArgs a inv))
    (ha : a.isValid = true) (hg : GoodTable t) (hb : AllBlocks (Toy.codec id) t Tame)
    (hb' : AllBlocks (Toy.codec id) t' Tame) :
    ∃ t'' evs, Completes (twoEnv t' t) (restoreArgs a inv) t' t'' evs ∧
      Restores (twoEnv t' t) (restoreArgs a inv) (some a) inv t := by
  obtain ⟨t'', evs, h⟩ := C50_overlay_completes (twoEnv t' t) (restoreArgs a inv) _ _ "other" a
    (twoEnv_ok _ _) (fun _ => rfl) rfl ⟨_, rfl⟩ rfl rfl ⟨_, rfl⟩ hg hargs
    rfl rfl ha (.inl rfl) hb' hb (by intro h; cases h)
  exact ⟨t'', evs, h, twoEnv_ok _ _, fun _ _ => rfl, rfl, ⟨_, _, rfl, rfl, rfl⟩, rfl, rfl, .inl rfl⟩

theorem restore_toy (inv : Bool) {t t' : Table} (hg : GoodTable t) (hb : AllBlocks (Toy.codec id) t Tame)
    (hb' : AllBlocks (Toy.codec id) t' Tame) :
    ∃ t'' evs, Completes (twoEnv t' t) (overlayArgs inv) t' t'' evs ∧
      Restores (twoEnv t' t) (overlayArgs inv) (some ⟨⟨0, 0, 0⟩, ⟨0, 0, 0⟩⟩) inv t :=
  restore_area ⟨⟨0, 0, 0⟩, ⟨0, 0, 0⟩⟩ inv (by rw [← verifyArgs_iff]; cases inv <;> decide) (by decide) hg hb hb'

/-- What the theorems on edits assume is met: `t'` is what the command makes of the toy map, and `t''` what
becomes of that if the toy map is laid over it. -/
def Undone (b : MapBlock) (args : InstArgs) (inv : Bool) : Prop :=
  ∃ t' evs t'' evs2, Completes (editEnv (toyMap b)) args (toyMap b) t' evs ∧
    Completes (twoEnv t' (toyMap b)) (overlayArgs inv) t' t'' evs2 ∧
    Restores (twoEnv t' (toyMap b)) (overlayArgs inv) args.area args.invert (toyMap b) ∧
    AllBlocks (Toy.codec id) (toyMap b) Generated ∧ AllBlocks (Toy.codec id) (toyMap b) Tame

theorem undone_soft {b : MapBlock} (hw : Wf b) (hgen : Generated (stored b)) (ht : Tame (stored b)) {args : InstArgs}
    {t' : Table} {evs : List Event} {rest : Prop}
    (h : Completes (editEnv (toyMap b)) args (toyMap b) t' evs) (harea : args.area = some ⟨⟨0, 0, 0⟩, ⟨0, 0, 0⟩⟩)
    (hs : SoftEdit (Toy.codec id) args.area args.invert rest (toyMap b) t') :
    Undone b args args.invert := by
  have hb := toyMap_all hw ht
  obtain ⟨t'', evs2, h2, r⟩ := restore_toy args.invert (toyMap_good b) hb (hs.tame (toyMap_good b) hb)
  exact ⟨t', evs, t'', evs2, h, h2, by rw [harea]; exact r, toyMap_all hw hgen, hb⟩

theorem toy_generated (v : Nat) : Generated (stored (Toy.block v)) := by
  have : (stored (Toy.block v)).flags = (stored (Toy.block 28)).flags := rfl
  unfold Generated
  rw [this]
  decide

example : Undone (Toy.block 29) (fillArgs false) false := by
  have hw := Toy.block_wf 29 (by omega)
  obtain ⟨t', evs, h⟩ := fill_toy false (Toy.block 29) hw (toy_tame 29).covered (toy_small 29)
  exact undone_soft hw (toy_generated 29) (toy_tame 29) h rfl
    (fill_soft _ _ _ _ _ ⟨⟨0, 0, 0⟩, ⟨0, 0, 0⟩⟩ "default:stone" (editEnv_ok _) (toyMap_good _) rfl rfl (by decide) rfl h)

example : Undone (Toy.block 29) param2Args true := by
  have hw := Toy.block_wf 29 (by omega)
  have ha : AreaOk param2Args.area := by intro a h; cases h; decide
  obtain ⟨t', evs, h⟩ := C37_setparam2_completes (editEnv (toyMap (Toy.block 29))) param2Args _ 7
    (editEnv_ok _) (fun _ => rfl) (editEnv_file _) ⟨_, rfl⟩ (toyMap_good _)
    (by rw [← verifyArgs_iff]; decide) rfl rfl ha (.inl (by decide)) rfl (by intro h; cases h)
  exact undone_soft hw (toy_generated 29) (toy_tame 29) h rfl
    (setparam2_soft _ _ _ _ _ 7 (editEnv_ok _) (toyMap_good _) rfl rfl ha h)

example : Undone (Toy.block 29) (metaArgs "deletemeta") false := by
  have hw := Toy.block_wf 29 (by omega)
  have ha : AreaOk (metaArgs "deletemeta").area := by intro a h; cases h; decide
  obtain ⟨t', evs, h⟩ := C40_deletemeta_completes (editEnv (toyMap (Toy.block 29))) (metaArgs "deletemeta") _
    (editEnv_ok _) (fun _ => rfl) (editEnv_file _) ⟨_, rfl⟩ (toyMap_good _)
    (by rw [← verifyArgs_iff]; decide) rfl ha rfl (by intro h; cases h)
    (fun _ => toyMap_all hw (metaInside_stored (toy_metaInside 29)))
  exact undone_soft hw (toy_generated 29) (toy_tame 29) h rfl
    (deletemeta_soft _ _ _ _ _ (editEnv_ok _) (toyMap_good _) rfl ha h)

example : Undone (Toy.block 29) setVarArgs false := by
  have hw := Toy.block_wf 29 (by omega)
  have ha : AreaOk setVarArgs.area := by intro a h; cases h; decide
  obtain ⟨t', evs, h⟩ := C41_setmetavar_completes (editEnv (toyMap (Toy.block 29))) setVarArgs _ "k"
    (editEnv_ok _) (fun _ => rfl) (editEnv_file _) ⟨_, rfl⟩ (toyMap_good _)
    (by rw [← verifyArgs_iff]; decide)
    (by unfold CommandRefuses; simp [setVarArgs, metaArgs, runArgs]) rfl ha rfl (by decide) rfl (by intro h; cases h)
    (fun _ => toyMap_all hw (metaInside_stored (toy_metaInside 29)))
  exact undone_soft hw (toy_generated 29) (toy_tame 29) h rfl
    (setmetavar_soft _ _ _ _ _ "k" (editEnv_ok _) (toyMap_good _) rfl ha rfl h)

theorem invBlock_tame : Tame (stored invBlock) :=
  ⟨(toy_tame 29).covered, (toy_tame 29).small, fun e he => Nat.lt_trans (invBlock_inside e he) (by decide)⟩

example : Undone invBlock (invArgs "a:c") false ∧
    AllBlocks (Toy.codec id) (toyMap invBlock) (InvsGood (toBytes "a:b")) ∧
    ¬ endWord <:+ newItemOf (invArgs "a:c") (toBytes "a:b") := by
  have hw := invBlock_wf
  have h3 := toyMap_all hw (P := InvsGood (toBytes "a:b")) (by rw [invBlock_stored]; exact invBlock_good)
  have ha : AreaOk (invArgs "a:c").area := by intro a h; cases h; decide
  have he : ¬ endWord <:+ newItemOf (invArgs "a:c") (toBytes "a:b") := by decide
  obtain ⟨t', evs, h⟩ := C46_replaceininv_completes (editEnv (toyMap invBlock)) (invArgs "a:c") _ "a:b"
    (editEnv_ok _) (fun _ => rfl) (editEnv_file _) ⟨_, rfl⟩ (toyMap_good _)
    (by rw [← verifyArgs_iff]; decide)
    (by unfold CommandRefuses; simp [invArgs, metaArgs, runArgs]) rfl ha rfl he rfl (by intro h; cases h)
    (fun h => absurd rfl h) h3
  exact ⟨undone_soft hw (by unfold Generated; decide) invBlock_tame h rfl
    (replaceininv_soft _ _ _ _ _ "a:b" (editEnv_ok _) (toyMap_good _) rfl ha rfl he h3 h), h3, he⟩

example : Undone (Toy.block 29) replArgs true ∧
    AllBlocks (Toy.codec id) (toyMap (Toy.block 29)) (GoodIds .debug) := by
  have hw := Toy.block_wf 29 (by omega)
  have hid : AllBlocks (Toy.codec id) (toyMap (Toy.block 29)) (GoodIds .debug) :=
    toyMap_all hw ⟨toy_unique 29, by decide, fun _ e he => by
      have := toy_small 29 e he
      omega⟩
  have ha : AreaOk replArgs.area := by intro a h; cases h; decide
  have hb := toyMap_all hw (toy_tame 29)
  obtain ⟨t', evs, h⟩ := C35_replacenodes_completes (editEnv (toyMap (Toy.block 29))) replArgs _ "air" "default:stone"
    (editEnv_ok _) (fun _ => rfl) (editEnv_file _) ⟨_, rfl⟩ (toyMap_good _)
    (by rw [← verifyArgs_iff]; decide)
    (by unfold CommandRefuses; simp [replArgs, runArgs]) rfl ha rfl rfl (by decide) rfl (by intro h; cases h)
    (toyMap_all hw fun e he => Nat.le_trans (toy_small 29 e he) (by decide))
  have h1 := replacenodes_rooms (editEnv_ok _) (toyMap_good _) rfl ha rfl rfl hid (fun k d b h1 h2 => (hb k d b h1 h2).room) h
  have h2 := C35_replacenodes_names _ _ _ _ _ "air" "default:stone" 1 (editEnv_ok _) (toyMap_good _).nodup rfl ha rfl rfl
    (by decide) (by decide) (toyMap_all hw ⟨toy_unique 29, toy_named 29, toy_small 29⟩) h
  obtain ⟨t'', evs2, h3, r⟩ := restore_toy true (toyMap_good (Toy.block 29)) hb (t' := t') fun k d' b' hd hr => by
    obtain ⟨bp, g1, g2, -⟩ := row_pos (goodTable_of_edited (toyMap_good _) h2) hd
    simp only at g2
    subst g2
    obtain ⟨d, b, -, -, -, f1, f2⟩ := edited_back h2 g1 hd hr
    exact ⟨named_covered f1, fun e he => Nat.le_trans (f2 e he) (by decide), h1 _ _ _ hd hr⟩
  exact ⟨⟨t', evs, t'', evs2, h, h3, r, toyMap_all hw (toy_generated 29), hb⟩, hid⟩

/-- Like `metaArgs`, with the area inverted. -/
def restArgs (command : String) : InstArgs := { metaArgs command with invert := true }

example : Undone (Toy.block 29) (restArgs "deletetimers") true := by
  have hw := Toy.block_wf 29 (by omega)
  have ha : AreaOk (restArgs "deletetimers").area := by intro a h; cases h; decide
  obtain ⟨t', evs, h⟩ := C42_deletetimers_completes (editEnv (toyMap (Toy.block 29))) (restArgs "deletetimers") _
    (editEnv_ok _) (fun _ => rfl) (editEnv_file _) ⟨_, rfl⟩ (toyMap_good _)
    (by rw [← verifyArgs_iff]; decide) rfl ha rfl (by intro h; cases h) (fun _ => toyMap_all hw (toy_timersInside 29))
  exact undone_soft hw (toy_generated 29) (toy_tame 29) h rfl
    (deletetimers_soft _ _ _ _ _ (editEnv_ok _) (toyMap_good _) rfl ha h)

example : Undone (Toy.block 29) (restArgs "deleteobjects") true := by
  have hw := Toy.block_wf 29 (by omega)
  have ha : AreaOk (restArgs "deleteobjects").area := by intro a h; cases h; decide
  obtain ⟨t', evs, h⟩ := C43_deleteobjects_completes (editEnv (toyMap (Toy.block 29))) (restArgs "deleteobjects") _
    (editEnv_ok _) (fun _ => rfl) (editEnv_file _) ⟨_, rfl⟩ (toyMap_good _)
    (by rw [← verifyArgs_iff]; decide) rfl ha (.inl rfl) rfl (by intro h; cases h)
    (fun _ _ => toyMap_all hw (toy_objectsNear 29))
  exact undone_soft hw (toy_generated 29) (toy_tame 29) h rfl
    (deleteobjects_soft _ _ _ _ _ (editEnv_ok _) (toyMap_good _) rfl ha h)

theorem oneMap_gen {b : MapBlock} (hw : Wf b) (hg : Generated (stored b)) :
    ∀ x ∈ oneMap b, GenData (Toy.codec id) x.2 :=
  List.forall_mem_singleton.2 (genData_of (Toy.lawful id) (Toy.data_rep hw) hg)

/-- Delete the block at the origin. -/
def originArgs : InstArgs :=
  { runArgs false "deleteblocks" "map" none with area := some ⟨⟨0, 0, 0⟩, ⟨15, 15, 15⟩⟩ }

example : ∃ t' evs t'' evs2, Completes (editEnv (oneMap (Toy.block 29))) originArgs (oneMap (Toy.block 29)) t' evs ∧
    Completes (twoEnv t' (oneMap (Toy.block 29))) (restoreArgs ⟨⟨0, 0, 0⟩, ⟨15, 15, 15⟩⟩ false) t' t'' evs2 ∧
    Restores (twoEnv t' (oneMap (Toy.block 29))) (restoreArgs ⟨⟨0, 0, 0⟩, ⟨15, 15, 15⟩⟩ false)
      originArgs.area originArgs.invert (oneMap (Toy.block 29)) ∧
    (∀ x ∈ oneMap (Toy.block 29), GenData (Toy.codec id) x.2) ∧
    AllBlocks (Toy.codec id) (oneMap (Toy.block 29)) Tame ∧ t' = [] := by
  have hw := Toy.block_wf 29 (by omega)
  have ha : AreaOk originArgs.area := by intro a h; cases h; decide
  have hb := oneMap_all hw (toy_tame 29)
  obtain ⟨t', evs, h⟩ := C39_deleteblocks_completes (editEnv (oneMap (Toy.block 29))) originArgs _ (fun _ => rfl)
    (editEnv_file _) ⟨_, rfl⟩ (by rw [← verifyArgs_iff]; decide) rfl rfl (by intro h; cases h)
  obtain ⟨-, h4, h5⟩ := C39_deleteblocks _ _ _ _ _ (oneMap_good _) rfl ha h
  have ht : t' = [] := by
    refine List.eq_nil_iff_forall_not_mem.2 fun x hx => ?_
    have hx' := h4 x hx
    unfold oneMap at hx'
    rw [List.mem_singleton] at hx'
    refine (h5 ⟨0, 0, 0⟩ _ (by unfold ValidBlockPos; decide) (oneMap_mem _)).1 (fun q hq => ?_)
      (List.mem_map.2 ⟨x, hx, by rw [hx']; rfl⟩)
    show Selected (some ⟨⟨0, 0, 0⟩, ⟨15, 15, 15⟩⟩) false q
    rw [selected_iff]
    have hq : InBox ⟨0, 0, 0⟩ ⟨15, 15, 15⟩ q := by
      unfold InBlock at hq
      unfold InBox
      simp only at hq ⊢
      omega
    exact iff_of_true hq rfl
  obtain ⟨t'', evs2, h2, r⟩ := restore_area ⟨⟨0, 0, 0⟩, ⟨15, 15, 15⟩⟩ false (by rw [← verifyArgs_iff]; decide) (by decide)
    (oneMap_good _) hb (t' := t') (by rw [ht]; intro k d b hd; cases hd)
  exact ⟨t', evs, t'', evs2, h, h2, r, oneMap_gen hw (toy_generated 29), hb, ht⟩

theorem named_has {b b' : MapBlock} {i j : Nat} (hw : Wf b) (hn : Named b) (hj : j < 4096) (h : NodeAs b' i b j) :
    b'.nimap ≠ [] := by
  obtain ⟨n, hn⟩ := named_node hw.nodes.1 hn hj
  have := h.1 n hn
  intro he
  unfold nodeName at this
  rw [he] at this
  cases hx : b'.nd.nodes[i]? <;> rw [hx] at this <;> cases this

theorem copied_tame {c : Codec} {src t t' : Table} {o : Vec3} {Sel Reach : Vec3 → Prop} (hg : GoodTable t)
    (h : CopiedOrKept c src t t' o Sel Reach) (hb : AllBlocks c t fun b => Tame b ∧ Named b ∧ Generated b)
    (hbs : AllBlocks c src Named)
    (hr : ∀ r ∈ t', r ∈ t ∨ ∃ b, Represents c r.2 b ∧ Tidy b ∧ MetaRoom b ∧ Written b) : AllBlocks c t' Tame := by
  intro k d' b' hd' hr'
  rcases hr _ hd' with h1 | ⟨b1, h1, h2, h3⟩
  · exact (hb _ _ _ h1 hr').1
  rw [represents_unique h1 hr'] at h2 h3
  have hw := wf_of_represents hr'
  have hne : b'.nimap ≠ [] := by
    obtain ⟨⟨k0, d⟩, hd, hk⟩ := List.mem_map.1 ((h.keys k).1 (List.mem_map.2 ⟨_, hd', rfl⟩))
    simp only at hk
    subst hk
    obtain ⟨bp, g1, g2, -⟩ := row_pos hg hd
    simp only at g2
    subst g2
    by_cases hx : ∃ b, Represents c d b
    · obtain ⟨b, hx⟩ := hx
      obtain ⟨-, k1, k2⟩ := hb _ _ _ hd hx
      obtain ⟨d2, b2, f1, f2, -, f3⟩ := h.good bp d b g1 hd hx k2
      have e := row_unique h.nodup f1 hd'
      rw [← e] at f2
      rw [represents_unique hr' f2]
      rcases f3 0 (by decide) with f3 | ⟨sb, -, -, ⟨-, -, sd, f4, f5⟩, f6⟩
      · exact named_has (wf_of_represents hx) k1 (by decide) f3
      · exact named_has (wf_of_represents f5) (hbs _ _ _ f4 f5) (by unfold idxOf; omega) f6
    · have f1 := h.bad _ _ hd fun b hb => absurd ⟨b, hb⟩ hx
      have e := row_unique h.nodup f1 hd'
      rw [e] at hr'
      exact absurd ⟨_, hr'⟩ hx
  exact ⟨named_covered (h2.isNamed hne hw), h2.small hw, h3.1⟩

theorem box_one (x d : Int) (p : Vec3) :
    InBox ⟨x + d, 0, 0⟩ ⟨x + d, 0, 0⟩ p ↔ InBox ⟨x, 0, 0⟩ ⟨x, 0, 0⟩ (unshift p ⟨d, 0, 0⟩) := by
  unfold InBox unshift
  simp only
  omega

/-- Node (0, 0, 0) is copied to (18, 0, 0), and then node (18, 0, 0) restored. -/
example : ∃ t' evs t'' evs2,
    Completes (editEnv (pairMap 0 (Toy.block 28))) (cloneArgs 0 18) (pairMap 0 (Toy.block 28)) t' evs ∧
    Completes (twoEnv t' (pairMap 0 (Toy.block 28))) (restoreArgs ⟨⟨18, 0, 0⟩, ⟨18, 0, 0⟩⟩ false) t' t'' evs2 ∧
    Restores (twoEnv t' (pairMap 0 (Toy.block 28))) (restoreArgs ⟨⟨18, 0, 0⟩, ⟨18, 0, 0⟩⟩ false)
      (some ⟨⟨18, 0, 0⟩, ⟨18, 0, 0⟩⟩) false (pairMap 0 (Toy.block 28)) ∧
    (∀ p, InBox ⟨18, 0, 0⟩ ⟨18, 0, 0⟩ p ↔ InBox ⟨0, 0, 0⟩ ⟨0, 0, 0⟩ (unshift p ⟨18, 0, 0⟩)) ∧
    GoodTable (pairMap 0 (Toy.block 28)) ∧ AllBlocks (Toy.codec id) (pairMap 0 (Toy.block 28)) (Mild .release) := by
  have hw := Toy.block_wf 28 (by omega)
  obtain ⟨t', evs, h⟩ := clone_toy (x := 0) (y := 0) (d := 18) 28 (by omega) (by decide) (by decide) (by omega)
    (by omega) (by omega)
  have hg := pairMap_good (x := 0) (by decide) (by decide) (Toy.block 28)
  have hb := pairMap_all (x := 0) hw (P := Tame) (toy_tame 28)
  have hm := fun bd => hb.mono fun b hx => hx.mild bd
  have hb' := copied_tame hg (C83_clone _ _ _ _ _ ⟨⟨0, 0, 0⟩, ⟨0, 0, 0⟩⟩ ⟨18, 0, 0⟩ (editEnv_ok _) hg rfl rfl (by decide)
    rfl (hm _) h) (pairMap_all hw ⟨toy_tame 28, toy_named 28, toy_generated 28⟩) (pairMap_all hw (toy_named 28))
    (clone_rows _ _ _ _ _ ⟨⟨0, 0, 0⟩, ⟨0, 0, 0⟩⟩ ⟨18, 0, 0⟩ (editEnv_ok _) hg rfl rfl (by decide) rfl (hm _) h)
  obtain ⟨t'', evs2, h2, r⟩ := restore_area ⟨⟨18, 0, 0⟩, ⟨18, 0, 0⟩⟩ false (by rw [← verifyArgs_iff]; decide) (by decide)
    hg hb hb'
  exact ⟨t', evs, t'', evs2, h, h2, r, box_one 0 18, hg, hm _⟩

/-- The same for node (0, 0, 0) of another map. -/
example : ∃ t' evs t'' evs2, Completes (twoEnv (pairMap 0 (Toy.block 28)) (pairMap 0 (otherBlock 0)))
      (overlayShiftArgs 0 18) (pairMap 0 (Toy.block 28)) t' evs ∧
    Completes (twoEnv t' (pairMap 0 (Toy.block 28))) (restoreArgs ⟨⟨18, 0, 0⟩, ⟨18, 0, 0⟩⟩ false) t' t'' evs2 ∧
    Restores (twoEnv t' (pairMap 0 (Toy.block 28))) (restoreArgs ⟨⟨18, 0, 0⟩, ⟨18, 0, 0⟩⟩ false)
      (some ⟨⟨18, 0, 0⟩, ⟨18, 0, 0⟩⟩) false (pairMap 0 (Toy.block 28)) ∧
    GoodTable (pairMap 0 (Toy.block 28)) ∧ GoodTable (pairMap 0 (otherBlock 0)) ∧
    AllBlocks (Toy.codec id) (pairMap 0 (Toy.block 28)) (Mild .release) ∧
    AllBlocks (Toy.codec id) (pairMap 0 (otherBlock 0)) (Mild .release) := by
  have hw := Toy.block_wf 28 (by omega)
  have hw' := otherBlock_wf (flags := 0) (by omega)
  obtain ⟨t', evs, h⟩ := overlay_shift_toy (x := 0) (y := 0) (d := 18) (by decide) (by decide) (by omega)
    (by omega) (by omega) (by omega)
  have hg := pairMap_good (x := 0) (by decide) (by decide) (Toy.block 28)
  have hgs := pairMap_good (x := 0) (by decide) (by decide) (otherBlock 0)
  have hb := pairMap_all (x := 0) hw (P := Tame) (toy_tame 28)
  have hbs := pairMap_all (x := 0) hw' (P := Tame) (otherBlock_tame 0)
  have hm := fun bd => hb.mono fun b hx => hx.mild bd
  have hms := fun bd => hbs.mono fun b hx => hx.mild bd
  have hv : ∀ a, (overlayShiftArgs 0 18).area = some a → a.isValid = true := by intro a h; cases h; decide
  have hb' := copied_tame hg (C83_overlay_offset _ _ _ _ _ "other" _ ⟨18, 0, 0⟩ (twoEnv_ok _ _) hg hgs rfl rfl rfl hv rfl
      (by decide) (hm _) (hms _) h)
    (pairMap_all hw ⟨toy_tame 28, toy_named 28, toy_generated 28⟩) (pairMap_all hw' (otherBlock_named 0))
    (shifted_rows _ _ _ _ _ "other" _ ⟨18, 0, 0⟩ (twoEnv_ok _ _) hg rfl rfl rfl hv rfl (by decide) (hm _) (hms _) h)
  obtain ⟨t'', evs2, h2, r⟩ := restore_area ⟨⟨18, 0, 0⟩, ⟨18, 0, 0⟩⟩ false (by rw [← verifyArgs_iff]; decide) (by decide)
    hg hb hb'
  exact ⟨t', evs, t'', evs2, h, h2, r, hg, hgs, hm _, hms _⟩

/-- Node (0, 0, 0) is replaced by that of another map, and then restored. -/
example : ∃ t' evs t'' evs2, Completes (twoEnv (oneMap (Toy.block 28)) (oneMap (otherBlock 0)))
      (overlayArgs false) (oneMap (Toy.block 28)) t' evs ∧
    Completes (twoEnv t' (oneMap (Toy.block 28))) (overlayArgs false) t' t'' evs2 ∧
    Restores (twoEnv t' (oneMap (Toy.block 28))) (overlayArgs false)
      (overlayArgs false).area (overlayArgs false).invert (oneMap (Toy.block 28)) ∧
    GoodTable (oneMap (Toy.block 28)) ∧ GoodTable (oneMap (otherBlock 0)) ∧
    (∀ k ∈ (oneMap (otherBlock 0)).map (·.1), k ∈ (oneMap (Toy.block 28)).map (·.1)) ∧
    (∀ x ∈ oneMap (Toy.block 28), GenData (Toy.codec id) x.2) ∧
    AllBlocks (Toy.codec id) (oneMap (Toy.block 28)) (Mild .release) ∧
    AllBlocks (Toy.codec id) (oneMap (otherBlock 0)) (Mild .release) := by
  have hw := Toy.block_wf 28 (by omega)
  have hw' := otherBlock_wf (flags := 0) (by omega)
  obtain ⟨t', evs, h⟩ := overlay_toy false 0 (by omega)
  have hg := oneMap_good (Toy.block 28)
  have hgs := oneMap_good (otherBlock 0)
  have hb := oneMap_all hw (P := Tame) (toy_tame 28)
  have hbs := oneMap_all hw' (P := Tame) (otherBlock_tame 0)
  have hm := fun bd => hb.mono fun b hx => hx.mild bd
  have hms := fun bd => hbs.mono fun b hx => hx.mild bd
  have ha : AreaOk (overlayArgs false).area := by intro a h; cases h; decide
  have O := C83_overlay _ _ _ _ _ "other" _ ⟨⟨0, 0, 0⟩, ⟨0, 0, 0⟩⟩ (twoEnv_ok _ _) hg hgs rfl rfl rfl rfl (by decide) (.inl rfl)
    (hm _) (hms _) h
  have hrow := overlay_rows _ _ _ _ _ "other" _ (twoEnv_ok _ _) hg hgs rfl rfl rfl ha (.inl rfl) (hm _) (hms _) h
  have hbp : ValidBlockPos ⟨0, 0, 0⟩ := by unfold ValidBlockPos; decide
  have hb' : AllBlocks (Toy.codec id) t' Tame := by
    intro k d' b' hd' hr'
    rcases hrow _ hd' with h1 | h1 | ⟨b1, h1, h2, h3⟩
    · exact hb _ _ _ h1 hr'
    · exact hbs _ _ _ h1 hr'
    have e := represents_unique h1 hr'
    rw [e] at h2 h3
    have hk : k = keyOf ⟨0, 0, 0⟩ := by
      have : k ∈ [(0 : Int)] := by
        rcases O.added _ _ hd' with h4 | ⟨h4, -⟩
        · exact h4
        · exact List.mem_map_of_mem (f := (·.1)) h4
      exact List.mem_singleton.1 this
    rw [hk] at hd'
    have hne : b'.nimap ≠ [] := by
      rcases O.part _ _ _ _ _ hbp (oneMap_mem _) (Toy.data_rep hw') trivial (oneMap_mem _) (Toy.data_rep hw)
        (toy_generated 28) (partly_toy false) with f1 | ⟨d2, b2, f1, f2, -, -, f3⟩
      · have e := row_unique O.nodup hd' f1
        rw [← e] at hr'
        rw [represents_unique hr' (Toy.data_rep hw)]
        simp [show (stored (Toy.block 28)).nimap = [(0, ascii "air"), (1, ascii "a")] from rfl]
      · have e := row_unique O.nodup hd' f1
        rw [e] at f2
        rw [represents_unique hr' f2]
        have f4 := f3 1 (by decide)
        rw [if_neg (by rw [selected_iff]; decide)] at f4
        exact named_has (wf_of_represents (Toy.data_rep hw)) (toy_named 28) (by decide) f4
    have hw2 := wf_of_represents hr'
    exact ⟨named_covered (h2.isNamed hne hw2), h2.small hw2, h3.1⟩
  obtain ⟨t'', evs2, h2, r⟩ := restore_toy false hg hb hb'
  refine ⟨t', evs, t'', evs2, h, h2, r, hg, hgs, ?_, oneMap_gen hw (toy_generated 28), hm _, hms _⟩
  show ∀ k ∈ [(0 : Int)], k ∈ [(0 : Int)]
  exact fun k hk => hk

/-! ## Where the changes stay -/

/-- A timer deleted from a block of which only a part is selected does not come back. -/
theorem C92_timers_false : ∃ (b : MapBlock) (args : InstArgs), args.command = "deletetimers" ∧
    ∃ t' evs t'' evs2, Completes (editEnv (toyMap b)) args (toyMap b) t' evs ∧
      Completes (twoEnv t' (toyMap b)) (overlayArgs false) t' t'' evs2 ∧
      Restores (twoEnv t' (toyMap b)) (overlayArgs false) args.area args.invert (toyMap b) ∧
      AllBlocks (Toy.codec id) (toyMap b) Generated ∧ AllBlocks (Toy.codec id) (toyMap b) Tame ∧
      ¬ Alike (Toy.codec id) (toyMap b) t'' := by
  have hw := Toy.block_wf 29 (by omega)
  have ha : AreaOk (metaArgs "deletetimers").area := by intro a h; cases h; decide
  obtain ⟨t', evs, h⟩ := C42_deletetimers_completes (editEnv (toyMap (Toy.block 29))) (metaArgs "deletetimers") _
    (editEnv_ok _) (fun _ => rfl) (editEnv_file _) ⟨_, rfl⟩ (toyMap_good _)
    (by rw [← verifyArgs_iff]; decide) rfl ha rfl (by intro h; cases h) (fun _ => toyMap_all hw (toy_timersInside 29))
  have hs := deletetimers_soft _ _ _ _ _ (editEnv_ok _) (toyMap_good _) rfl ha h
  have E := C42_deletetimers _ _ _ _ _ (editEnv_ok _) (toyMap_good _).nodup rfl ha (by intro hx; cases hx rfl) h
  have hb := toyMap_all hw (toy_tame 29)
  have hb' := hs.tame (toyMap_good _) hb
  have hg' := goodTable_of_edited (toyMap_good _) E
  obtain ⟨t'', evs2, h2, r⟩ := restore_toy false (toyMap_good _) hb hb'
  refine ⟨_, _, rfl, t', evs, t'', evs2, h, h2, r, toyMap_all hw (toy_generated 29), hb, fun A => ?_⟩
  have O := r.overlaid ha hg' (toyMap_good _) (hb'.mono fun b hx => hx.mild _) (hb.mono fun b hx => hx.mild _) h2
  have hbp : ValidBlockPos ⟨0, 0, 0⟩ := by unfold ValidBlockPos; decide
  have hm : (keyOf ⟨0, 0, 0⟩, Toy.data (Toy.block 29)) ∈ toyMap (Toy.block 29) := List.mem_cons_self
  have hrep := Toy.data_rep hw
  obtain ⟨d', b', f1, f2, f3, -, -, -, f4⟩ := E.good _ _ _ hbp hm hrep
  have hgen : Generated b' := by
    unfold Generated
    rw [f3.2.1]
    exact toy_generated 29
  obtain ⟨d2, b2, g1, g2, g3, -⟩ := O.part _ _ _ _ _ hbp hm hrep trivial f1 f2 hgen (partly_toy false)
  have g3 : SameRest b' b2 := g3
  have key : (stored (Toy.block 29)).timers = b2.timers := by
    rcases A.rows _ _ hm with k1 | ⟨d3, b0, b3, k1, k2, k3, k4, -⟩
    · have e := row_unique A.nodup g1 k1
      rw [← e] at g2
      rw [represents_unique g2 hrep]
    · have e := row_unique A.nodup g1 k1
      rw [e] at k3
      rw [represents_unique g2 k3, k4.2.2, represents_unique k2 hrep]
  rw [g3.2.2] at key
  rw [← key, show (stored (Toy.block 29)).timers = [⟨0, 10, 5⟩] from rfl] at f4
  cases f4 with
  | drop _ h5 =>
    cases h5
  | keep h5 _ =>
    refine h5 ⟨?_, fun n hn => by cases hn⟩
    show Selected (some ⟨⟨0, 0, 0⟩, ⟨0, 0, 0⟩⟩) false _
    rw [selected_iff]
    decide

/-- A change of a block that is not marked as generated does not come back. -/
theorem C92_ungenerated_false : ∃ (b : MapBlock) (args : InstArgs), args.command = "fill" ∧
    ∃ t' evs t'' evs2, Completes (editEnv (toyMap b)) args (toyMap b) t' evs ∧
      Completes (twoEnv t' (toyMap b)) (overlayArgs false) t' t'' evs2 ∧
      Restores (twoEnv t' (toyMap b)) (overlayArgs false) args.area args.invert (toyMap b) ∧
      AllBlocks (Toy.codec id) (toyMap b) Tame ∧ ¬ Alike (Toy.codec id) (toyMap b) t'' := by
  have hw := rawBlock_wf
  obtain ⟨t', evs, h⟩ := fill_toy false rawBlock hw (toy_tame 28).covered (toy_small 28)
  have hs := fill_soft _ _ _ _ _ ⟨⟨0, 0, 0⟩, ⟨0, 0, 0⟩⟩ "default:stone" (editEnv_ok _) (toyMap_good _) rfl rfl (by decide)
    rfl h
  have E := C32_fill _ _ _ _ _ ⟨⟨0, 0, 0⟩, ⟨0, 0, 0⟩⟩ "default:stone" (editEnv_ok _) (toyMap_good _).nodup rfl rfl (by decide)
    rfl h
  have hb : AllBlocks (Toy.codec id) (toyMap rawBlock) Tame :=
    toyMap_all hw ⟨(toy_tame 28).covered, (toy_tame 28).small, (toy_tame 28).room⟩
  have hb' := hs.tame (toyMap_good _) hb
  have hg' := goodTable_of_edited (toyMap_good _) E
  obtain ⟨t'', evs2, h2, r⟩ := restore_toy false (toyMap_good _) hb hb'
  refine ⟨_, _, rfl, t', evs, t'', evs2, h, h2, r, hb, fun A => ?_⟩
  have O := r.overlaid (by intro a h; cases h; decide) hg' (toyMap_good _) (hb'.mono fun b hx => hx.mild _)
    (hb.mono fun b hx => hx.mild _) h2
  have hbp : ValidBlockPos ⟨0, 0, 0⟩ := by unfold ValidBlockPos; decide
  have hm : (keyOf ⟨0, 0, 0⟩, Toy.data rawBlock) ∈ toyMap rawBlock := List.mem_cons_self
  have hrep := Toy.data_rep hw
  obtain ⟨d', b', f1, f2, f3, -, -, -, -, -, f4⟩ := E.good _ _ _ hbp hm hrep
  have hname := (f4 0 (by decide)).1 ((selected_iff _ _ _).2 (by unfold InBox; decide))
  have hk := O.kept _ _ hbp f1 (by
    rintro (⟨hwh, -⟩ | ⟨-, sd, sb, b, -, -, -, k1, k2⟩)
    · obtain ⟨-, q, hq, hq'⟩ := partly_toy false
      exact hq' (hwh q hq)
    · have hf : b.flags = 8 := by rw [represents_unique k1 f2]; exact f3.2.1
      unfold Generated at k2
      rw [hf] at k2
      exact absurd k2 (by decide))
  have hname0 : nodeName (stored rawBlock) 0 = some (ascii "a") := rfl
  have key : nodeName b' 0 = some (ascii "a") := by
    rcases A.rows _ _ hm with k1 | ⟨d3, b0, b3, k1, k2, k3, -, k4⟩
    · have e := row_unique A.nodup hk k1
      rw [← e] at f2
      rw [represents_unique f2 hrep]
      exact hname0
    · have e := row_unique A.nodup hk k1
      rw [e] at k3
      rw [represents_unique f2 k3]
      exact (k4 0 (by decide)).1 _ (by rw [represents_unique k2 hrep]; exact hname0)
  rw [hname] at key
  exact absurd key (by decide)

/-- The area of `rowArgs`. -/
def rowRestore : InstArgs :=
  { runArgs false "overlay" "map" (some "other") with area := some ⟨⟨16, 0, 0⟩, ⟨40, 15, 15⟩⟩ }

/-- A deleted block whose data does not say that it is generated does not come back. -/
theorem C92_deleted_false : ∃ t' evs t'' evs2, Completes (editEnv rowMap) (rowArgs false) rowMap t' evs ∧
    Completes (twoEnv t' rowMap) rowRestore t' t'' evs2 ∧
    Restores (twoEnv t' rowMap) rowRestore (rowArgs false).area (rowArgs false).invert rowMap ∧
    GoodTable rowMap ∧ 1 ∈ rowMap.map (·.1) ∧ 1 ∉ t''.map (·.1) := by
  refine ⟨[(0, [1]), (2, [3])], (computeThread (editEnv rowMap) (rowArgs false) World.start).2.events,
    [(0, [1]), (2, [3])], (computeThread (twoEnv [(0, [1]), (2, [3])] rowMap) rowRestore World.start).2.events,
    ⟨_, _, _, rfl, rfl, rfl, rfl, by decide, rfl, rfl⟩, ⟨_, _, _, rfl, rfl, rfl, rfl, by decide, rfl, rfl⟩,
    ⟨twoEnv_ok _ _, fun _ _ => rfl, rfl, ⟨_, _, rfl, rfl, rfl⟩, rfl, rfl, .inl rfl⟩, ⟨by decide, ?_⟩, by decide, by decide⟩
  decide

end MapEditr
