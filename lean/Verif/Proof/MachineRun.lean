import Verif.Proof.MachineSteps
import Verif.Proof.Clone
import Verif.Proof.Instance
/-! # Lemmas: the commands and the worker, computing with machine integers -/

set_option linter.unusedSimpArgs false
set_option linter.unusedVariables false

namespace MapEditr
namespace Checked
open Spec

/-- Nothing has been counted yet. -/
def NoneYet (w : World) : Prop := w.status.done = 0 ∧ w.status.failed = 0

/-- The loop over the blocks found is the same. -/
theorem query_edit_same {β γ : Type} {Q : Table → Prop} (size : β → Nat) {F' F : β → Int → Run β}
    {ok : List Int → World → Prop} {env : Env} {i : DbId} {strs : List Bytes} {area : Option Area} {invert p : Bool}
    {b : β} {tail : β → Run γ} {sort' sort : List Int → Run (List Int)} {w : World}
    (h : ∀ a, area = some a → NearArea a) (hw : KeysFit Fits i w) (hq : KeysFit Q i w) (h0 : NoneYet w) (hb : size b = 0)
    (hsort : ∀ keys, (∀ k ∈ keys, ValidKey k) → ∃ ks, sort' keys = pure ks ∧ sort keys = pure ks ∧ ks.Perm keys)
    (hok : ∀ keys w1, keys.Nodup → (∀ k ∈ keys, ValidKey k) → KeysFit Q i w1 → (keys = [] ∨ ∃ rows, Q rows) → ok keys w1)
    (step : ∀ k rest b w, ok (k :: rest) w → Low w → size b ≤ 9223372036854775808 →
      Agree (fun b' w' => size b' ≤ size b + 134217728 ∧ Rise w w' ∧ ok rest w') (F' b k) (F b k) w) :
    (queryKeys env i strs area invert p >>= fun keys => sort' keys >>= fun keys =>
      beginEditing >>= fun _ => keys.foldlM F' b >>= tail) w =
    (MapEditr.queryKeys env i strs area invert p >>= fun keys => sort keys >>= fun keys =>
      beginEditing >>= fun _ => keys.foldlM F b >>= tail) w := by
  refine run_bind_same (queryKeys_eq strs invert p h hw) fun keys w1 e => ?_
  obtain ⟨-, d1, f1, hr⟩ := queryKeys_sub hw e
  obtain ⟨hq1, -, -, hr2⟩ := queryKeys_sub hq e
  have hk : keys.Nodup ∧ ∀ k ∈ keys, ValidKey k := by
    rcases hr with rfl | ⟨rows, hf, hs⟩
    · simp
    · refine ⟨hs.nodup hf.nodup, fun k hk => ?_⟩
      obtain ⟨r, hr, rfl⟩ := List.mem_map.1 (hs.subset hk)
      exact hf.valid r hr
  obtain ⟨ks, e1, e2, hp⟩ := hsort keys hk.2
  rw [e1, e2]
  refine run_bind_same rfl fun _ w2 e => ?_
  cases e
  refine run_bind_same rfl fun _ w2 e => ?_
  have e' : w2 = (beginEditing w1).2 := by rw [e]
  subst e'
  have hlen : ks.length ≤ 68719476736 := by rw [hp.length_eq]; exact keys_bound hk.1 hk.2
  have hm : ∀ k ∈ ks, ValidKey k := fun k hk' => hk.2 k (hp.mem_iff.1 hk')
  refine run_bind_same (agree_fold size step ks b _ (hok ks _ (hp.nodup_iff.2 hk.1) hm (hq1.same rfl) ?_) ?_ ?_ ?_)
    fun _ _ _ => rfl
  · rcases hr2 with rfl | ⟨rows, h1, -⟩
    · exact .inl hp.eq_nil
    · exact .inr ⟨rows, h1⟩
  · rw [hb]; omega
  · show w1.status.done + _ ≤ _
    rw [d1, h0.1]
    omega
  · show w1.status.failed + _ ≤ _
    rw [f1, h0.2]
    omega

/-- Nothing but the keys matters to what follows. -/
theorem query_plain_same {β γ : Type} (size : β → Nat) {F' F : β → Int → Run β} {env : Env} {i : DbId}
    {strs : List Bytes} {area : Option Area} {invert p : Bool} {b : β} {tail : β → Run γ} {w : World}
    (h : ∀ a, area = some a → NearArea a) (hw : KeysFit Fits i w) (h0 : NoneYet w) (hb : size b = 0)
    (step : ∀ k b w, ValidKey k → Low w → size b ≤ 9223372036854775808 →
      Agree (fun b' w' => size b' ≤ size b + 134217728 ∧ Rise w w') (F' b k) (F b k) w) :
    (queryKeys env i strs area invert p >>= fun keys => beginEditing >>= fun _ => keys.foldlM F' b >>= tail) w =
    (MapEditr.queryKeys env i strs area invert p >>= fun keys => beginEditing >>= fun _ => keys.foldlM F b >>= tail) w := by
  have := query_edit_same (Q := fun _ => True) (env := env) (strs := strs) (invert := invert) (p := p) (tail := tail)
    (sort' := pure) (sort := pure) (ok := fun keys _ => ∀ k ∈ keys, ValidKey k) size h hw
    (fun _ _ => ⟨trivial, trivial⟩) h0 hb (fun keys _ => ⟨keys, rfl, rfl, .refl _⟩) (fun _ _ _ h _ _ => h)
    fun k rest b w ho hl hs => agree_mono (step k b w (ho k List.mem_cons_self) hl hs) fun _ _ h =>
      ⟨h.1, h.2, fun k' hk' => ho k' (List.mem_cons_of_mem _ hk')⟩
  exact this

theorem run_unwrap_same {α β : Type} (o : Option α) {f g : α → Run β} {w : World} (h : ∀ a, o = some a → f a w = g a w) :
    (Run.unwrap o >>= f) w = (Run.unwrap o >>= g) w := by
  cases o with
  | none => rfl
  | some a => exact h a rfl

section
variable {env : Env} {args : InstArgs} {w : World} (h : ∀ a, args.area = some a → NearArea a)
  (hw : KeysFit Fits .main w) (h0 : NoneYet w)
include h hw h0

theorem fill_eq : fill env args w = MapEditr.fill env args w := by
  unfold fill MapEditr.fill
  refine run_unwrap_same _ fun a ha => run_unwrap_same _ fun n _ => ?_
  exact query_plain_same id (by rintro _ ⟨⟩; exact h a ha) hw h0 rfl fun k c w hk hl hc =>
    fillStep_agree args.invert _ (h a ha) hk hl hc

theorem replaceNodes_eq : replaceNodes env args w = MapEditr.replaceNodes env args w := by
  unfold replaceNodes MapEditr.replaceNodes
  refine run_unwrap_same _ fun a _ => run_unwrap_same _ fun n _ => ?_
  exact query_plain_same id h hw h0 rfl fun k c w hk hl hc => replaceStep_agree _ _ h hk hl hc

theorem setParam2_eq : setParam2 env args w = MapEditr.setParam2 env args w := by
  unfold setParam2 MapEditr.setParam2
  refine run_unwrap_same _ fun a _ => ?_
  exact query_plain_same id h hw h0 rfl fun k c w hk hl hc => param2Step_agree _ _ h hk hl hc

theorem deleteBlocks_eq : deleteBlocks env args w = MapEditr.deleteBlocks env args w :=
  query_plain_same (fun _ => 0) h hw h0 rfl fun k c w hk hl hc =>
    agree_mono (deleteBlockStep_agree hl) fun _ _ h => ⟨by omega, h⟩

theorem deleteMetadata_eq : deleteMetadata env args w = MapEditr.deleteMetadata env args w :=
  query_plain_same id h hw h0 rfl fun k c w hk hl hc => deleteMetaStep_agree _ hk hl hc

theorem setMetaVar_eq : setMetaVar env args w = MapEditr.setMetaVar env args w := by
  unfold setMetaVar MapEditr.setMetaVar
  refine run_unwrap_same _ fun a _ => ?_
  exact query_plain_same id h hw h0 rfl fun k c w hk hl hc => setMetaVarStep_agree _ _ _ hk hl hc

theorem deleteTimers_eq : deleteTimers env args w = MapEditr.deleteTimers env args w :=
  query_plain_same id h hw h0 rfl fun k c w hk hl hc => deleteTimersStep_agree _ hk hl hc

theorem deleteObjects_eq : deleteObjects env args w = MapEditr.deleteObjects env args w :=
  query_plain_same id h hw h0 rfl fun k c w hk hl hc => deleteObjectsStep_agree _ _ hl hc

theorem replaceInInv_eq (hi : KeysFit (fun t => ∀ r ∈ t, InvsSmall env.codec r.2) .main w) :
    replaceInInv env args w = MapEditr.replaceInInv env args w := by
  unfold replaceInInv MapEditr.replaceInInv
  refine run_unwrap_same _ fun a _ => ?_
  refine query_edit_same (sort' := pure) (sort := pure) (fun c : Nat × Nat => max c.1 c.2) h hw hi h0 rfl
    (fun keys _ => ⟨keys, rfl, rfl, .refl _⟩) (ok := InvsOk env.codec) ?_
    fun k rest c w ho hl hc => replaceInInvStep_agree _ _ _ ho hl hc
  intro keys w1 hn hv hs _
  refine ⟨hn, hv, fun k _ d hd => ?_⟩
  unfold shown at hd
  cases hm : w1.dbs .main with
  | none => rw [hm] at hd; cases hd
  | some m =>
    rw [hm] at hd
    exact (hs m hm).1 (k, d) (Table.get?_some_mem hd)
end

/-! ## clone -/

/-- An offset within twice the map limit. -/
def NearOffset (o : Vec3) : Prop := -62000 ≤ o.x ∧ o.x ≤ 62000 ∧ -62000 ≤ o.y ∧ o.y ≤ 62000 ∧ -62000 ≤ o.z ∧
  o.z ≤ 62000

/-- An area within the map. -/
def MapArea (a : Area) : Prop := a.isValid = true ∧ -31000 ≤ a.min.x ∧ a.max.x ≤ 31000 ∧ -31000 ≤ a.min.y ∧
  a.max.y ≤ 31000 ∧ -31000 ≤ a.min.z ∧ a.max.z ≤ 31000

theorem MapArea.near {a : Area} (h : MapArea a) : NearArea a := by
  unfold MapArea at h
  unfold NearArea NearPos
  simp only [isValid_iff] at h ⊢
  omega

theorem MapArea.shift (b : Build) {a : Area} {o : Vec3} (h : MapArea a) (ho : NearOffset o) :
    areaAdd b a o = .ok (a.add o) ∧ NearArea (a.add o) := by
  unfold MapArea at h
  unfold NearOffset at ho
  simp only [isValid_iff] at h
  refine ⟨areaAdd_eq b a o (by omega) (by omega) (by omega) (by omega) (by omega) (by omega), ?_⟩
  unfold NearArea NearPos
  simp only [isValid_iff, Area.add, Vec3.add]
  omega

theorem sortKeys_eq (b : Build) (o : Vec3) {keys : List Int} (h : ∀ k ∈ keys, ValidKey k) :
    sortKeys b o keys = MapEditr.sortKeys o keys := by
  unfold sortKeys MapEditr.sortKeys
  split
  · rfl
  rw [res_mapM_same keys _ _ fun k hk => ?_]
  rw [cloneSortKey_eq b o k (h k hk), sortKey_eq (h k hk)]
  rfl

theorem within_block {q : Vec3} (h : q.isValidBlockPos = true) : ValidBlockPos q := within_valid (isValidBlockPos_iff.1 h)

section
variable {env : Env} {offset dstPos : Vec3} (ho : NearOffset offset) (hd : ValidBlockPos dstPos)
include ho hd

theorem cloneSrc_eq {srcPart : Area} (hs : NearArea srcPart) (st : MapBlock × CacheMap BlockResult) (srcPos : Vec3) :
    cloneSrc env srcPart offset dstPos st srcPos = MapEditr.cloneSrc env srcPart offset dstPos st srcPos := by
  unfold cloneSrc MapEditr.cloneSrc
  split
  · rfl
  · rename_i hv
    have hv : ValidBlockPos srcPos := within_block (by simpa using hv)
    rw [toBlockKey_eq]
    simp only [mergeFrag_eq env.build _ _ hs ho hd hv]
    rfl

theorem overlaySrc_eq {srcPart : Area} (hs : NearArea srcPart) (st : MapBlock × CacheMap (Option MapBlock))
    (srcPos : Vec3) :
    overlaySrc env srcPart offset dstPos st srcPos = MapEditr.overlaySrc env srcPart offset dstPos st srcPos := by
  unfold overlaySrc MapEditr.overlaySrc
  split
  · rfl
  · rename_i hv
    have hv : ValidBlockPos srcPos := within_block (by simpa using hv)
    rw [toBlockKey_eq]
    simp only [mergeFrag_eq env.build _ _ hs ho hd hv]
    rfl

/-- A part of a block, shifted back. -/
theorem srcPart_eq (b : Build) {part : Area} (hv : part.isValid = true)
    (hb : dstPos.x * 16 ≤ part.min.x ∧ part.max.x ≤ dstPos.x * 16 + 15 ∧
      dstPos.y * 16 ≤ part.min.y ∧ part.max.y ≤ dstPos.y * 16 + 15 ∧
      dstPos.z * 16 ≤ part.min.z ∧ part.max.z ≤ dstPos.z * 16 + 15) :
    areaSub b part offset = .ok (part.sub offset) ∧ NearArea (part.sub offset) ∧
      positions b (part.sub offset).toTouchingBlockArea = .ok (part.sub offset).toTouchingBlockArea.positions := by
  unfold NearOffset at ho
  unfold ValidBlockPos at hd
  simp only [isValid_iff] at hv
  refine ⟨areaSub_eq b part offset (by omega) (by omega) (by omega) (by omega) (by omega) (by omega), ?_,
    positions_eq b _ ?_⟩
  · unfold NearArea NearPos
    simp only [isValid_iff, Area.sub, Vec3.sub]
    omega
  · unfold NearArea NearPos
    simp only [isValid_iff, Area.toTouchingBlockArea, Area.sub, Vec3.sub, Vec3.map]
    omega
end

theorem absBlockOverlap_part {a : Area} {bp : Vec3} {o : Area} (h : a.absBlockOverlap bp = some o) :
    o.isValid = true ∧ bp.x * 16 ≤ o.min.x ∧ o.max.x ≤ bp.x * 16 + 15 ∧
      bp.y * 16 ≤ o.min.y ∧ o.max.y ≤ bp.y * 16 + 15 ∧ bp.z * 16 ≤ o.min.z ∧ o.max.z ≤ bp.z * 16 + 15 := by
  simp only [Area.absBlockOverlap, filterValid_some] at h
  obtain ⟨hv, rfl⟩ := h
  refine ⟨hv, ?_⟩
  simp only [Vec3.mulS, Vec3.addS]
  omega

theorem run_unwrap_congr {α β : Type} (o : Option α) {f g : α → Run β} (h : ∀ a, o = some a → f a = g a) :
    (Run.unwrap o >>= f) = (Run.unwrap o >>= g) := by
  cases o with
  | none => rfl
  | some a => exact h a rfl

theorem cloneStep_eq {env : Env} {dstArea : Area} {offset : Vec3} (ha : NearArea dstArea) (ho : NearOffset offset)
    (cache : CacheMap BlockResult) {key : Int} (hk : ValidKey key) {w : World} (hw : Low w) :
    cloneStep env dstArea offset cache key w = MapEditr.cloneStep env dstArea offset cache key w := by
  unfold cloneStep MapEditr.cloneStep
  refine (agree_done (R := fun _ _ => True) hw fun w1 h1 h2 _ => agree_still (still_cloneCached env cache key)
    fun x w2 _ s2 => ?_).1
  obtain ⟨r, cache⟩ := x
  rcases r with _ | _ | dst
  · exact agree_pure trivial
  · exact agree_skip hw (After.same ⟨h1, h2⟩ s2) fun _ _ _ => trivial
  · refine ⟨?_, fun _ _ _ => trivial⟩
    simp only
    rw [fromBlockKey_eq env.build key hk, run_lift_ok, (fns_eq env.build ha (valid_pos hk)).2.2.2.1, run_lift_ok]
    refine congrFun (run_unwrap_congr _ fun part hp => ?_) _
    obtain ⟨hv, hb⟩ := absBlockOverlap_part hp
    obtain ⟨e1, h1, e2⟩ := srcPart_eq ho (valid_pos hk) env.build hv hb
    rw [e1, run_lift_ok, e2, run_lift_ok,
      foldlM_same _ fun st q _ => cloneSrc_eq ho (valid_pos hk) h1 st q]

/-- A step that does the same and counts one block at most. -/
theorem agree_advs {α : Type} {m' m : Run α} {w : World} (h : Advs 1 1 m) (e : m' w = m w) :
    Agree (fun _ w' => Rise w w') m' m w := by
  refine ⟨e, fun a w' e' => ?_⟩
  have := h w
  rw [e'] at this
  exact ⟨this.done.2, this.failed.2⟩

theorem clone_eq {env : Env} {args : InstArgs} {w : World} (cap : Nat) (h : ∀ a, args.area = some a → MapArea a)
    (ho : ∀ o, args.offset = some o → NearOffset o) (hw : KeysFit Fits .main w) (h0 : NoneYet w) :
    clone env cap args w = MapEditr.clone env cap args w := by
  unfold clone MapEditr.clone
  refine run_unwrap_same _ fun a ha => run_unwrap_same _ fun o ho' => ?_
  obtain ⟨e1, h1⟩ := (h a ha).shift env.build (ho o ho')
  rw [e1, run_lift_ok]
  refine query_edit_same (Q := fun _ => True) (fun _ => 0) (ok := fun keys _ => ∀ k ∈ keys, ValidKey k)
    (by rintro _ ⟨⟩; exact h1) hw (fun _ _ => ⟨trivial, trivial⟩) h0 rfl ?_ (fun _ _ _ h _ _ => h)
    fun k rest b w hk hl _ => agree_mono (agree_advs (advs_cloneStep env _ _ _ _)
      (cloneStep_eq h1 (ho o ho') b (hk k List.mem_cons_self) hl))
      fun _ _ h => ⟨by omega, h, fun k' hk' => hk k' (List.mem_cons_of_mem _ hk')⟩
  intro keys hk
  obtain ⟨ks, k1, k2, -⟩ := sortKeys_run (o := o) hk
  refine ⟨ks, ?_, ?_, k2⟩
  · rw [sortKeys_eq env.build o hk, k1]; rfl
  · rw [k1]; rfl

/-! ## overlay -/

theorem copyPart_eq {env : Env} {area : Area} (invert : Bool) {key : Int} (ha : NearArea area) (hk : ValidKey key)
    {w : World} (hw : w.status.failed < 1152921504606846976) :
    copyPart env area invert key (Vec3.fromBlockKey key) w = MapEditr.copyPart env area invert key w := by
  have bad : ∀ v : World, v.status.failed = w.status.failed →
      Agree (fun _ _ => True) (incFailed env.build) MapEditr.incFailed v := by
    intro v e
    refine ⟨?_, fun _ _ _ => trivial⟩
    unfold incFailed
    rw [u64_small env.build (by omega)]
    rfl
  unfold copyPart MapEditr.copyPart
  simp only [(fns_eq env.build ha (valid_pos hk)).2.2.2.2, run_lift_ok]
  refine (agree_still (R := fun _ _ => True) (still_getGenerated env .main key) fun g w1 _ s1 => ?_).1
  cases g with
  | none => exact agree_pure trivial
  | some dd =>
    simp only
    refine agree_still (still_getBlock env .input key) fun x w2 _ s2 => agree_still (still_expect x) fun sd w3 _ s3 =>
      agree_still (still_deser env sd) fun s w4 _ s4 => ?_
    have t4 : w4.status = w.status := s4.trans (s3.trans (s2.trans s1))
    cases s with
    | error e => exact bad w4 (by rw [t4])
    | ok src =>
      simp only
      refine agree_still (still_deser env dd) fun d w5 _ s5 => ?_
      cases d with
      | error e => exact bad w5 (by rw [s5, t4])
      | ok dst =>
        refine ⟨?_, fun _ _ _ => trivial⟩
        simp only
        refine congrFun (run_unwrap_congr _ fun part hp => ?_) _
        have hb := relBlockOverlap_part hp
        cases invert <;> simp only [mergeBlocks_eq env.build _ _ hb hb, mergeMetadata_eq env.build _ _ hb hb] <;> rfl

theorem overlayStep_eq {env : Env} {area : Option Area} (invert : Bool) {key : Int}
    (ha : ∀ a, area = some a → NearArea a) (hk : ValidKey key) {w : World} (hw : Low w) :
    overlayStep env area invert key w = MapEditr.overlayStep env area invert key w := by
  unfold overlayStep MapEditr.overlayStep
  refine (agree_done (R := fun _ _ => True) hw fun w1 h1 h2 _ => ⟨?_, fun _ _ _ => trivial⟩).1
  cases area with
  | none => rfl
  | some a =>
    have h := fns_eq env.build (ha a rfl) (valid_pos hk)
    simp only
    rw [fromBlockKey_eq env.build key hk, run_lift_ok]
    have e : copiesWhole env.build a invert (Vec3.fromBlockKey key) = .ok ((!invert && a.containsBlock (Vec3.fromBlockKey key)) ||
        (invert && !a.touchesBlock (Vec3.fromBlockKey key))) := by
      unfold copiesWhole
      rw [h.1, h.2.1]
      cases invert <;> simp [res_bind_ok, res_pure]
    rw [e, run_lift_ok]
    split
    · rfl
    · exact copyPart_eq invert (ha a rfl) hk (by rw [h2]; exact hw.2)

theorem overlayNoOffset_eq {env : Env} {args : InstArgs} {w : World} (h : ∀ a, args.area = some a → NearArea a)
    (hw : KeysFit Fits .input w) (h0 : NoneYet w) :
    overlayNoOffset env args w = MapEditr.overlayNoOffset env args w :=
  query_plain_same (fun _ => 0) h hw h0 rfl fun k _ w hk hl _ =>
    agree_mono (agree_advs (advs_overlayStep env _ _ _) (overlayStep_eq args.invert h hk hl)) fun _ _ h => ⟨by omega, h⟩

/-- The part of a block that the shifted overlay replaces. -/
def partOf (dstArea : Option Area) (p : Vec3) : Option Area :=
  match dstArea with
  | none => some ⟨p.mulS 16, (p.mulS 16).addS 15⟩
  | some a => a.absBlockOverlap p

theorem partOf_bind {β : Type} (dstArea : Option Area) (p : Vec3) (f : Area → Run β) : (match dstArea with
    | none => (do
      let part ← (pure ⟨p.mulS 16, (p.mulS 16).addS 15⟩ : Run Area)
      f part)
    | some a => (do
      let part ← Run.unwrap (a.absBlockOverlap p)
      f part)) = (Run.unwrap (partOf dstArea p) >>= f) := by
  unfold partOf
  cases dstArea <;> rfl

theorem overlayPart_eq (b : Build) {dstArea : Option Area} {p : Vec3} (ha : ∀ a, dstArea = some a → NearArea a)
    (hp : ValidBlockPos p) : overlayPart b dstArea p = unwrap "unwrap" (partOf dstArea p) := by
  have hp' := hp
  unfold ValidBlockPos at hp'
  unfold overlayPart partOf
  rw [vmulS_eq b p hp, res_bind_ok, res_bind_ok,
    vaddS_eq b (p.mulS 16) 15 (by simp only [Vec3.mulS]; omega) (by simp only [Vec3.mulS]; omega)
      (by simp only [Vec3.mulS]; omega), res_bind_ok]
  have e : Area.new (p.mulS 16) ((p.mulS 16).addS 15) = .ok ⟨p.mulS 16, (p.mulS 16).addS 15⟩ := by
    have : Area.isValid ⟨p.mulS 16, (p.mulS 16).addS 15⟩ = true := by
      simp only [isValid_iff, Vec3.mulS, Vec3.addS]; omega
    unfold Area.new rassert
    simp only [this, if_true]
    rfl
  rw [e, res_bind_ok]
  cases dstArea with
  | none => rfl
  | some a => simp only [(fns_eq b (ha a rfl) hp).2.2.2.1, res_bind_ok]

theorem overlayOffsetStep_eq {env : Env} {dstArea : Option Area} {offset : Vec3}
    (ha : ∀ a, dstArea = some a → NearArea a) (ho : NearOffset offset) (cache : CacheMap (Option MapBlock)) {key : Int}
    (hk : ValidKey key) {w : World} (hw : Low w) :
    overlayOffsetStep env dstArea offset cache key w = MapEditr.overlayOffsetStep env dstArea offset cache key w := by
  unfold overlayOffsetStep MapEditr.overlayOffsetStep
  rw [fromBlockKey_eq env.build key hk]
  refine (agree_done (R := fun _ _ => True) hw fun w1 h1 h2 _ => ?_).1
  rw [run_lift_ok]
  simp only
  refine agree_still (still_getGenerated env .main key) fun g w2 _ s2 => ?_
  cases g with
  | none => exact agree_pure trivial
  | some dd =>
    simp only
    refine agree_still (still_deser env dd) fun d w3 _ s3 => ?_
    cases d with
    | error e => exact agree_skip hw (After.same ⟨h1, h2⟩ (s3.trans s2)) fun _ _ _ => trivial
    | ok dst =>
      refine ⟨?_, fun _ _ _ => trivial⟩
      simp only
      rw [overlayPart_eq env.build ha (valid_pos hk)]
      refine congrFun (Eq.trans ?_ (partOf_bind dstArea _ _).symm) _
      refine run_unwrap_congr _ fun part hp => ?_
      have hb : part.isValid = true ∧ (Vec3.fromBlockKey key).x * 16 ≤ part.min.x ∧
          part.max.x ≤ (Vec3.fromBlockKey key).x * 16 + 15 ∧ (Vec3.fromBlockKey key).y * 16 ≤ part.min.y ∧
          part.max.y ≤ (Vec3.fromBlockKey key).y * 16 + 15 ∧ (Vec3.fromBlockKey key).z * 16 ≤ part.min.z ∧
          part.max.z ≤ (Vec3.fromBlockKey key).z * 16 + 15 := by
        unfold partOf at hp
        cases dstArea with
        | some a => exact absBlockOverlap_part hp
        | none =>
          cases hp
          have hv := valid_pos hk
          unfold ValidBlockPos at hv
          refine ⟨?_, ?_⟩
          · simp only [isValid_iff, Vec3.mulS, Vec3.addS]; omega
          · simp only [Vec3.mulS, Vec3.addS]; omega
      obtain ⟨e1, h1, e2⟩ := srcPart_eq ho (valid_pos hk) env.build hb.1 hb.2
      rw [e1, run_lift_ok, e2, run_lift_ok, foldlM_same _ fun st q _ => overlaySrc_eq ho (valid_pos hk) h1 st q]

theorem shiftArea_eq (b : Build) {area : Option Area} {o : Vec3} (h : ∀ a, area = some a → MapArea a) (ho : NearOffset o) :
    shiftArea b area o = .ok (area.map fun a => a.add o) := by
  unfold shiftArea
  cases area with
  | none => rfl
  | some a => simp only [((h a rfl).shift b ho).1, res_bind_ok, res_pure, Option.map_some]

theorem overlayWithOffset_eq {env : Env} {args : InstArgs} {w : World} (cap : Nat) (h : ∀ a, args.area = some a → MapArea a)
    (ho : ∀ o, args.offset = some o → NearOffset o) (hw : KeysFit Fits .main w) (h0 : NoneYet w) :
    overlayWithOffset env cap args w = MapEditr.overlayWithOffset env cap args w := by
  unfold overlayWithOffset MapEditr.overlayWithOffset
  refine run_unwrap_same _ fun o ho' => ?_
  rw [shiftArea_eq env.build h (ho o ho'), run_lift_ok]
  have hn : ∀ a', (args.area.map fun a => a.add o) = some a' → NearArea a' := by
    intro a' e
    rw [Option.map_eq_some_iff] at e
    obtain ⟨a, ea, rfl⟩ := e
    exact ((h a ea).shift env.build (ho o ho')).2
  exact query_plain_same (fun _ => 0) hn hw h0 rfl fun k c w hk hl _ =>
    agree_mono (agree_advs (advs_overlayOffsetStep env _ _ _ _) (overlayOffsetStep_eq hn (ho o ho') c hk hl))
      fun _ _ h => ⟨by omega, h⟩

theorem overlay_eq {env : Env} {args : InstArgs} {w : World} (cap : Nat) (h : ∀ a, args.area = some a → MapArea a)
    (ho : ∀ o, args.offset = some o → NearOffset o) (hm : KeysFit Fits .main w) (hi : KeysFit Fits .input w)
    (h0 : NoneYet w) : overlay env cap args w = MapEditr.overlay env cap args w := by
  unfold overlay MapEditr.overlay
  refine run_bind_same rfl fun m w1 e => ?_
  obtain ⟨-, rfl⟩ := theDb_iff.1 e
  split
  · exact overlayNoOffset_eq (fun a ha => (h a ha).near) hi h0
  · exact overlayWithOffset_eq cap h ho hm h0

/-! ## The worker -/

/-- Inventories need to be small for `replaceininv` only. -/
def RowsFit (c : Codec) (args : InstArgs) (t : Table) : Prop :=
  args.command = "replaceininv" → ∀ r ∈ t, InvsSmall c r.2

/-- Both databases have valid keys only, and nothing has been counted. -/
structure AllFit (c : Codec) (args : InstArgs) (w : World) : Prop where
  main : KeysFit Fits .main w
  input : KeysFit Fits .input w
  rows : KeysFit (RowsFit c args) .main w
  counts : NoneYet w

/-- The two versions of a command do the same for these arguments. -/
structure SameCmd (env : Env) (args : InstArgs) (c c' : Command) : Prop where
  verify : c.verify args = c'.verify args
  func : ∀ w, AllFit env.codec args w → c.func env args w = c'.func env args w
  args : c.args = c'.args

theorem cloneVerify_eq (b : Build) {args : InstArgs} (h : ∀ a, args.area = some a → MapArea a)
    (ho : ∀ o, args.offset = some o → NearOffset o) : cloneVerify b args = MapEditr.cloneVerify args := by
  unfold cloneVerify MapEditr.cloneVerify
  cases ha : args.area with
  | none => rfl
  | some a =>
    cases ho' : args.offset with
    | none => rfl
    | some o =>
      simp only [unwrap, res_bind_ok, ((h a ha).shift b (ho o ho')).1]

theorem overlayVerify_eq (b : Build) {args : InstArgs} (h : ∀ a, args.area = some a → MapArea a)
    (ho : ∀ o, args.offset = some o → NearOffset o) : overlayVerify b args = .ok (MapEditr.overlayVerify args) := by
  have hm : MapArea (args.area.getD MAP_AREA) := by
    cases ha : args.area with
    | none => unfold MapArea; decide
    | some a => exact h a ha
  have hn : NearOffset (args.offset.getD ⟨0, 0, 0⟩) := by
    cases ho' : args.offset with
    | none => unfold NearOffset; decide
    | some o => exact ho o ho'
  unfold overlayVerify MapEditr.overlayVerify
  simp only [(hm.shift b hn).1, res_bind_ok, res_pure]
  split
  · rfl
  · split <;> rfl

/-- Two lists with related elements. -/
inductive Pairs {α β : Type _} (R : α → β → Prop) : List α → List β → Prop
  | nil : Pairs R [] []
  | cons {a b l l'} : R a b → Pairs R l l' → Pairs R (a :: l) (b :: l')

theorem command_same {env : Env} {args : InstArgs} (h : ∀ a, args.area = some a → MapArea a)
    (ho : ∀ o, args.offset = some o → NearOffset o) :
    (command? env.build args.command = none ∧ MapEditr.command? args.command = none) ∨
    ∃ c c', command? env.build args.command = some c ∧ MapEditr.command? args.command = some c' ∧
      SameCmd env args c c' := by
  have hn : ∀ a, args.area = some a → NearArea a := fun a ha => (h a ha).near
  have go : ∀ l l' : List (String × Command),
      Pairs (fun a b => a.1 = b.1 ∧ (b.1 = args.command → SameCmd env args a.2 b.2)) l l' →
      ((l.find? fun c => c.1 == args.command).map (·.2) = none ∧ (l'.find? fun c => c.1 == args.command).map (·.2) = none) ∨
      ∃ c c', (l.find? fun c => c.1 == args.command).map (·.2) = some c ∧
        (l'.find? fun c => c.1 == args.command).map (·.2) = some c' ∧ SameCmd env args c c' := by
    intro l l' hf
    induction hf with
    | nil => exact .inl ⟨rfl, rfl⟩
    | @cons a b l l' hab _ ih =>
      simp only [List.find?_cons, hab.1]
      cases hb : b.1 == args.command with
      | false => exact ih
      | true => exact .inr ⟨a.2, b.2, rfl, rfl, hab.2 (by simpa using hb)⟩
  refine go _ _ ?_
  refine .cons ⟨rfl, fun _ => ⟨cloneVerify_eq _ h ho, fun w hm => clone_eq _ h ho hm.main hm.counts, rfl⟩⟩
    (.cons ⟨rfl, fun _ => ⟨rfl, fun w hm => deleteBlocks_eq hn hm.main hm.counts, rfl⟩⟩
    (.cons ⟨rfl, fun _ => ⟨rfl, fun w hm => deleteMetadata_eq hn hm.main hm.counts, rfl⟩⟩
    (.cons ⟨rfl, fun _ => ⟨rfl, fun w hm => deleteObjects_eq hn hm.main hm.counts, rfl⟩⟩
    (.cons ⟨rfl, fun _ => ⟨rfl, fun w hm => deleteTimers_eq hn hm.main hm.counts, rfl⟩⟩
    (.cons ⟨rfl, fun _ => ⟨rfl, fun w hm => fill_eq hn hm.main hm.counts, rfl⟩⟩
    (.cons ⟨rfl, fun _ => ⟨rfl, fun w hm => replaceNodes_eq hn hm.main hm.counts, rfl⟩⟩
    (.cons ⟨rfl, fun hc => ⟨rfl, fun w hm => replaceInInv_eq hn hm.main hm.counts fun m e =>
      ⟨(hm.rows m e).1 hc.symm, (hm.rows m e).2 hc.symm⟩, rfl⟩⟩
    (.cons ⟨rfl, fun _ => ⟨overlayVerify_eq _ h ho, fun w hm => overlay_eq _ h ho hm.main hm.input hm.counts, rfl⟩⟩
    (.cons ⟨rfl, fun _ => ⟨rfl, fun w hm => setMetaVar_eq hn hm.main hm.counts, rfl⟩⟩
    (.cons ⟨rfl, fun _ => ⟨rfl, fun w hm => setParam2_eq hn hm.main hm.counts, rfl⟩⟩
    (.cons ⟨rfl, fun _ => ⟨rfl, fun _ _ => rfl, rfl⟩⟩ .nil)))))))))))

section
variable {cc : Codec} {args : InstArgs}

theorem AllFit.same {w w' : World} (h : AllFit cc args w) (e : w'.dbs = w.dbs) (es : w'.status = w.status) :
    AllFit cc args w' :=
  ⟨h.main.same e, h.input.same e, h.rows.same e, by unfold NoneYet; rw [es]; exact h.counts⟩

theorem exec_allFit {env : Env} {j : DbId} {s : Sql} {w : World} (hs : Harmless s = true) (h : AllFit cc args w) :
    AllFit cc args (exec env j s w).2 :=
  ⟨exec_fit hs h.main, exec_fit hs h.input, exec_fit hs h.rows, by unfold NoneYet; rw [exec_status]; exact h.counts⟩

theorem openMap_fit {env : Env} {j : DbId} {path : String} {w : World} (hf : ∀ f, mapFile env path = some f → Fits f.table)
    (hr : j = .main → ∀ f, mapFile env path = some f → RowsFit cc args f.table)
    (h : AllFit cc args w) : AllFit cc args (openMap env j path w).2 := by
  unfold openMap
  cases e : mapFile env path with
  | none => exact h
  | some f =>
    simp only
    split
    · exact h.same rfl rfl
    · have hm : Fits (Conn.ofFile f).cur ∧ Fits (Conn.ofFile f).durable := ⟨hf f e, hf f e⟩
      exact ⟨KeysFit.same (KeysFit.set h.main fun _ => hm) rfl, KeysFit.same (KeysFit.set h.input fun _ => hm) rfl,
        KeysFit.same (KeysFit.set h.rows fun ej => ⟨hr ej.symm f e, hr ej.symm f e⟩) rfl, h.counts⟩

theorem theDb_fit {j : DbId} {w : World} (h : AllFit cc args w) : AllFit cc args (theDb j w).2 := by
  unfold theDb
  split <;> exact h

theorem bind_fit {α β : Type} {m : Run α} {f : α → Run β} {w : World} (h1 : AllFit cc args (m w).2)
    (h2 : ∀ a w', m w = (.ok a, w') → AllFit cc args w' → AllFit cc args (f a w').2) : AllFit cc args ((m >>= f) w).2 := by
  rw [run_bind]
  rcases e : m w with ⟨r, w1⟩
  rw [e] at h1
  cases r with
  | error e => exact h1
  | ok a => exact h2 a w1 e h1

theorem new_fit {env : Env} {j : DbId} {w : World} (h : AllFit cc args w) : AllFit cc args (MapDb.new env j w).2 := by
  unfold MapDb.new
  refine bind_fit (exec_allFit rfl h) fun ok w1 _ h1 => ?_
  split
  · refine bind_fit ?_ fun r w2 _ h2 => ?_
    · unfold verifyDatabase
      refine bind_fit (exec_allFit rfl h1) fun ok w2 _ h2 => ?_
      split
      · refine bind_fit (theDb_fit h2) fun m w3 _ h3 => ?_
        split <;> exact h3
      · exact h2
    · cases r with
      | error e => exact h2
      | ok _ =>
        refine bind_fit (exec_allFit rfl h2) fun ok w3 _ h3 => ?_
        split
        · refine bind_fit ?_ fun _ w4 _ h4 => h4
          unfold setFlag
          refine bind_fit (theDb_fit h3) fun m w4 e h4 => ?_
          obtain ⟨hm, rfl⟩ := theDb_iff.1 e
          refine ⟨KeysFit.set h4.main fun e => ?_, KeysFit.set h4.input fun e => ?_, KeysFit.set h4.rows fun e => ?_,
            h4.counts⟩
          · subst e; exact h4.main m hm
          · subst e; exact h4.input m hm
          · subst e; exact h4.rows m hm
        · exact h3
  · exact h1

end

theorem runCommand_eq {env : Env} {args : InstArgs} {c c' : Command} {warning : Option String} {w : World}
    (h : SameCmd env args c c') (hw : AllFit env.codec args w) :
    runCommand env args c warning w = runCommand env args c' warning w := by
  rw [MapEditr.runCommand_eq, MapEditr.runCommand_eq]
  split
  · rfl
  · have hs : AllFit env.codec args (w.say (preEvents args warning)) := hw.same rfl rfl
    exact run_bind_same (h.func _ hs) fun _ _ _ => rfl

theorem verified_area {args : InstArgs} (h : verifyArgs args = none) (hv : ∀ a, args.area = some a → a.isValid = true) :
    (∀ a, args.area = some a → MapArea a) ∧ ∀ o, args.offset = some o → NearOffset o := by
  have hor : ∀ {α : Type} {a b : Option α}, (a <|> b) = none ↔ a = none ∧ b = none := by
    intro α a b
    cases a <;> simp
  simp only [verifyArgs, hor] at h
  obtain ⟨-, h1, h2, -⟩ := h
  constructor
  · intro a e
    have hv := hv a e
    rw [e] at h1
    have hn : ∀ p : Vec3, p = a.min ∨ p = a.max → p.isValidNodePos = true := by
      intro p hp
      simp only [Option.bind_some, List.findSome?_eq_none_iff, List.mem_cons, List.not_mem_nil, or_false,
        ite_eq_left_iff] at h1
      have := h1 p hp
      cases hc : p.isValidNodePos with
      | true => rfl
      | false => simp [hc] at this
    have h3 := of_decide_eq_true (hn _ (.inl rfl))
    have h4 := of_decide_eq_true (hn _ (.inr rfl))
    simp only [MAP_LIMIT] at h3 h4
    refine ⟨hv, ?_⟩
    omega
  · intro o e
    rw [e] at h2
    simp only [Option.bind_some, ite_eq_right_iff, reduceCtorEq, imp_false, Bool.or_eq_true, huge,
      decide_eq_true_eq] at h2
    simp only [MAP_LIMIT] at h2
    unfold NearOffset
    omega

theorem start_fit {c : Codec} {args : InstArgs} : AllFit c args World.start :=
  ⟨fun _ h => (by cases h), fun _ h => (by cases h), fun _ h => (by cases h), rfl, rfl⟩

theorem worker_eq {env : Env} {args : InstArgs} (hv : ∀ a, args.area = some a → a.isValid = true)
    (hm : ∀ f, mapFile env args.mapPath = some f → Fits f.table)
    (hr : ∀ f, mapFile env args.mapPath = some f → RowsFit env.codec args f.table)
    (hi : ∀ p f, args.inputMapPath = some p → mapFile env p = some f → Fits f.table) :
    worker env args World.start = MapEditr.worker env args World.start := by
  unfold worker MapEditr.worker
  refine run_bind_same ?_ fun _ _ _ => rfl
  unfold computeThread MapEditr.computeThread
  cases hva : verifyArgs args with
  | some e => rfl
  | none =>
    simp only
    obtain ⟨ha, ho⟩ := verified_area hva hv
    rcases command_same (env := env) ha ho with ⟨e1, e2⟩ | ⟨c, c', e1, e2, hc⟩
    · rw [e1, e2]; rfl
    · rw [e1, e2]
      show (Run.lift (c.verify args) >>= _) _ = (Run.lift (c'.verify args) >>= _) _
      rw [hc.verify]
      refine run_bind_same rfl fun res w1 e => ?_
      have h1 : AllFit env.codec args w1 := by
        have : w1 = World.start := by
          cases hr : c'.verify args with
          | error e' => rw [hr] at e; cases e
          | ok r => rw [hr] at e; cases e; rfl
        subst this
        exact start_fit
      have rest : ∀ warning : Option String, (do
          let ok ← openMap env .main args.mapPath
          if !ok then return .error "Failed to open main world/map."
          else
            match ← MapDb.new env .main with
            | .error _ => return .error "Main world or map database is invalid."
            | .ok _ =>
              match args.inputMapPath with
              | none => runCommand env args c warning
              | some p =>
                let ok ← openMap env .input p
                if !ok then return .error "Failed to open input world/map."
                else
                  match ← MapDb.new env .input with
                  | .error _ => return .error "Input world or map database is invalid."
                  | .ok _ => runCommand env args c warning : Run (Except String Unit)) w1 = (do
          let ok ← openMap env .main args.mapPath
          if !ok then return .error "Failed to open main world/map."
          else
            match ← MapDb.new env .main with
            | .error _ => return .error "Main world or map database is invalid."
            | .ok _ =>
              match args.inputMapPath with
              | none => runCommand env args c' warning
              | some p =>
                let ok ← openMap env .input p
                if !ok then return .error "Failed to open input world/map."
                else
                  match ← MapDb.new env .input with
                  | .error _ => return .error "Input world or map database is invalid."
                  | .ok _ => runCommand env args c' warning : Run (Except String Unit)) w1 := by
        intro warning
        refine run_bind_same rfl fun ok w2 e2 => ?_
        have h2 : AllFit env.codec args w2 := by
          have := openMap_fit (j := .main) hm (fun _ => hr) h1
          rw [e2] at this
          exact this
        split
        · rfl
        · refine run_bind_same rfl fun r w3 e3 => ?_
          have h3 : AllFit env.codec args w3 := by
            have := new_fit (env := env) (j := .main) h2
            rw [e3] at this
            exact this
          cases r with
          | error _ => rfl
          | ok _ =>
            simp only
            cases hp : args.inputMapPath with
            | none => exact runCommand_eq hc h3
            | some p =>
              simp only
              refine run_bind_same rfl fun ok w4 e4 => ?_
              have h4 : AllFit env.codec args w4 := by
                have := openMap_fit (j := .input) (fun f hf => hi p f hp hf) (by rintro ⟨⟩) h3
                rw [e4] at this
                exact this
              split
              · rfl
              · refine run_bind_same rfl fun r w5 e5 => ?_
                have h5 : AllFit env.codec args w5 := by
                  have := new_fit (env := env) (j := .input) h4
                  rw [e5] at this
                  exact this
                cases r with
                | error _ => rfl
                | ok _ => exact runCommand_eq hc h5
      cases res with
      | error e => rfl
      | ok => exact rest none
      | warning t => exact rest (some t)

end Checked
end MapEditr
