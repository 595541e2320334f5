import Verif.Spec.CmdLine
import Verif.Props.Runs
/-!
# C38, C70, C71: from the command line to the command
-/

namespace MapEditr
open Spec

theorem valuesOf_iff {m : Matches} (hn : (m.map (·.1)).Nodup) {name : String} {vs : List String} :
    m.valuesOf name = some vs ↔ (name, vs) ∈ m := by
  unfold Matches.valuesOf
  induction m with
  | nil => simp
  | cons e t ih =>
    obtain ⟨n, v⟩ := e
    simp only [List.map_cons, List.nodup_cons] at hn
    rw [List.find?_cons]
    by_cases h : n = name
    · subst h
      simp only [beq_self_eq_true, Option.map_some, Option.some.injEq, List.mem_cons, Prod.mk.injEq, true_and]
      constructor
      · exact fun h => .inl h.symm
      · rintro (h | h)
        · exact h.symm
        · exact absurd (List.mem_map_of_mem (f := (·.1)) h) hn.1
    · have h1 : (n == name) = false := by simpa using h
      have h2 : ¬ (name = n ∧ vs = v) := fun x => h x.1.symm
      simp only [h1, List.mem_cons, Prod.mk.injEq, h2, false_or]
      exact ih hn.2

theorem valuesOf_none {m : Matches} (hn : (m.map (·.1)).Nodup) {name : String} :
    m.valuesOf name = none ↔ ∀ vs, (name, vs) ∉ m := by
  constructor
  · intro h vs hv
    rw [(valuesOf_iff hn).2 hv] at h
    cases h
  · intro h
    cases hv : m.valuesOf name with
    | none => rfl
    | some vs => exact absurd ((valuesOf_iff hn).1 hv) (h vs)

theorem holds_valueOf {m : Matches} (hn : (m.map (·.1)).Nodup) (name : String) : Holds m name (m.valueOf name) := by
  refine ⟨fun s hs => ?_, fun h => ?_⟩
  · unfold Matches.valueOf
    rw [(valuesOf_iff hn).2 hs]
    rfl
  · unfold Matches.valueOf
    rw [(valuesOf_none hn).2 h]
    rfl

theorem tells_isPresent {m : Matches} (hn : (m.map (·.1)).Nodup) (name : String) :
    Tells m name (m.isPresent name) := by
  unfold Tells Matches.isPresent
  rw [Option.isSome_iff_exists]
  exact exists_congr fun vs => valuesOf_iff hn

theorem optArg_iff {α β : Type} {e : String} {o : Option α} {f : α → Option β} {r : Option β} :
    optArg e o f = .ok r ↔ (o = none ∧ r = none) ∨ ∃ a b, o = some a ∧ f a = some b ∧ r = some b := by
  unfold optArg
  cases o with
  | none =>
    constructor
    · intro h; cases h; exact .inl ⟨rfl, rfl⟩
    · rintro (⟨-, rfl⟩ | ⟨a, b, h, -⟩)
      · rfl
      · cases h
  | some a =>
    cases hf : f a with
    | none =>
      simp only [hf]
      constructor
      · intro h; cases h
      · rintro (⟨h, -⟩ | ⟨a', b, h, h2, -⟩)
        · cases h
        · cases h; rw [hf] at h2; cases h2
    | some b =>
      simp only [hf]
      constructor
      · intro h; cases h; exact .inr ⟨a, b, rfl, hf, rfl⟩
      · rintro (⟨h, -⟩ | ⟨a', b', h, h2, rfl⟩)
        · cases h
        · cases h; rw [hf] at h2; cases h2; rfl

/-- The fields of the result. -/
theorem toInstArgs_fields {yes : Bool} {cmd map : String} {m : Matches} {args : InstArgs}
    (h : toInstArgs yes cmd map m = .ok args) :
    ∃ p1 p2, optArg "Invalid p1 value." (m.valuesOf "p1") argToPos = .ok p1 ∧
      optArg "Invalid p2 value." (m.valuesOf "p2") argToPos = .ok p2 ∧
      optArg "Invalid offset value." (m.valuesOf "offset") argToPos = .ok args.offset ∧
      optArg "Invalid param2 value." (m.valueOf "param2_val") parseU8 = .ok args.param2 ∧
      args = ⟨!yes, cmd, map, m.valueOf "input_map", areaOf p1 p2, m.isPresent "invert", args.offset,
        m.valueOf "node", (m.valuesOf "nodes").getD [], m.valueOf "new_node", m.valueOf "object",
        m.valueOf "item", m.valuesOf "items", m.valueOf "new_item", m.isPresent "delete",
        m.isPresent "delete_meta", m.valueOf "key", m.valueOf "value", args.param2⟩ := by
  unfold toInstArgs at h
  cases h1 : optArg "Invalid p1 value." (m.valuesOf "p1") argToPos with
  | error e => rw [h1] at h; cases h
  | ok r1 =>
  cases h2 : optArg "Invalid p2 value." (m.valuesOf "p2") argToPos with
  | error e => rw [h1, h2] at h; cases h
  | ok r2 =>
  cases h3 : optArg "Invalid offset value." (m.valuesOf "offset") argToPos with
  | error e => rw [h1, h2, h3] at h; cases h
  | ok r3 =>
  cases h4 : optArg "Invalid param2 value." (m.valueOf "param2_val") parseU8 with
  | error e => rw [h1, h2, h3, h4] at h; cases h
  | ok r4 =>
  rw [h1, h2, h3, h4] at h
  cases h
  exact ⟨r1, r2, rfl, rfl, rfl, rfl, rfl⟩

theorem argToPos_pos {a b c : String} {v : Vec3} (h : argToPos [a, b, c] = some v) : Pos a b c v := by
  obtain ⟨a', b', c', h1, h2, h3, h4, h5, h6, h7⟩ := (C68_positions _ _).1 h
  cases h1
  exact ⟨⟨h2, h5⟩, ⟨h3, h6⟩, ⟨h4, h7⟩⟩

theorem fromUnsorted_corners (v w : Vec3) : Corners (Area.fromUnsorted v w) v w := by
  unfold Corners Area.fromUnsorted
  exact ⟨rfl, rfl⟩

/-- All arguments other than `param2` reach the command, for every command and every command line that
`clap` accepts. -/
theorem C38_partial (yes : Bool) (name map : String) (m : Matches) (args : InstArgs) (c : Command)
    (_hc : command? name = some c) (ha : Accepted c.args m) (h : toInstArgs yes name map m = .ok args) :
    args.command = name ∧ args.mapPath = map ∧ (args.doConfirmation = true ↔ yes = false) ∧
    ∀ t ∈ c.args, t ≠ .param2 → Carries m args t := by
  obtain ⟨p1, p2, h1, h2, h3, -, h5⟩ := toInstArgs_fields h
  have hn := ha.once
  refine ⟨by rw [h5], by rw [h5], by rw [h5]; simp, ?_⟩
  intro t _ ht
  cases t with
  | inputMapPath => rw [h5]; exact holds_valueOf hn _
  | area r =>
    have harea : args.area = areaOf p1 p2 := by rw [h5]
    simp only [Carries, harea]
    refine ⟨?_, ?_⟩
    · intro a b c d e f hv1 hv2
      rw [(valuesOf_iff hn).2 hv1, optArg_iff] at h1
      rw [(valuesOf_iff hn).2 hv2, optArg_iff] at h2
      rcases h1 with ⟨h1, -⟩ | ⟨v1, w1, h1, h1', rfl⟩
      · cases h1
      · rcases h2 with ⟨h2, -⟩ | ⟨v2, w2, h2, h2', rfl⟩
        · cases h2
        · cases h1; cases h2
          exact ⟨w1, w2, _, argToPos_pos h1', argToPos_pos h2', rfl, fromUnsorted_corners w1 w2⟩
    · intro hv
      rw [(valuesOf_none hn).2 hv, optArg_iff] at h1
      rcases h1 with ⟨-, rfl⟩ | ⟨_, _, h1, -⟩
      · rfl
      · cases h1
  | invert => rw [h5]; exact tells_isPresent hn _
  | offset r =>
    refine ⟨?_, ?_⟩
    · intro a b c hv
      rw [(valuesOf_iff hn).2 hv, optArg_iff] at h3
      rcases h3 with ⟨h3, -⟩ | ⟨v, w, h3, h3', h4⟩
      · cases h3
      · cases h3
        exact ⟨w, argToPos_pos h3', h4⟩
    · intro hv
      rw [(valuesOf_none hn).2 hv, optArg_iff] at h3
      rcases h3 with ⟨-, h3⟩ | ⟨_, _, h3, -⟩
      · exact h3
      · cases h3
  | node r => rw [h5]; exact holds_valueOf hn _
  | nodes =>
    have hf : args.nodes = (m.valuesOf "nodes").getD [] := by rw [h5]
    refine ⟨fun vs hv => ?_, fun hv => ?_⟩
    · rw [hf, (valuesOf_iff hn).2 hv]; rfl
    · rw [hf, (valuesOf_none hn).2 hv]; rfl
  | newNode => rw [h5]; exact holds_valueOf hn _
  | object => rw [h5]; exact holds_valueOf hn _
  | item => rw [h5]; exact holds_valueOf hn _
  | items =>
    have hf : args.items = m.valuesOf "items" := by rw [h5]
    refine ⟨fun vs hv => ?_, fun hv => ?_⟩
    · rw [hf, (valuesOf_iff hn).2 hv]
    · rw [hf, (valuesOf_none hn).2 hv]
  | newItem => rw [h5]; exact holds_valueOf hn _
  | delete => rw [h5]; exact tells_isPresent hn _
  | deleteMeta => rw [h5]; exact tells_isPresent hn _
  | key => rw [h5]; exact holds_valueOf hn _
  | value => rw [h5]; exact holds_valueOf hn _
  | param2 => exact absurd rfl ht

/-- `mapeditr map setparam2 --p1 0 0 0 --p2 1 1 1 7` is accepted. -/
example : Accepted [.node false, .area false, .invert, .param2] param2Line ∧
    (toInstArgs true "setparam2" "map" param2Line).isOk = true :=
  ⟨⟨by decide, by decide, by decide, by decide⟩, by decide⟩

theorem pos_length {vs : List String} (h : vs.length = 3) : ∃ a b c, vs = [a, b, c] := by
  match vs, h with
  | [a, b, c], _ => exact ⟨a, b, c, rfl⟩

/-- Exactly one definition of a name. -/
def oneDef (ts : List ArgType) (d : ArgDef) : Bool :=
  (ts.flatMap argDefs).all fun d' => d'.name != d.name || d' == d

theorem accepted_values {ts : List ArgType} {m : Matches} (ha : Accepted ts m) {d : ArgDef} {vs : List String}
    (ho : oneDef ts d = true) (hy : d.name ≠ "yes") (hm : (d.name, vs) ∈ m) : CountOk d.values vs := by
  rcases ha.known _ hm with h | ⟨d', hd, h1, h2⟩
  · exact absurd h hy
  · have := List.all_eq_true.1 ho d' hd
    simp only [h1, bne_self_eq_false, Bool.false_or, beq_iff_eq] at this
    rw [← this]
    exact h2

theorem accepted_required {ts : List ArgType} {m : Matches} (ha : Accepted ts m) {d : ArgDef}
    (hd : d ∈ ts.flatMap argDefs) (ho : oneDef ts d = true) (hy : d.name ≠ "yes") (hr : d.required = true) :
    ∃ vs, (d.name, vs) ∈ m ∧ CountOk d.values vs := by
  obtain ⟨⟨n, vs⟩, he, hen⟩ := ha.required d hd hr
  simp only at hen
  subst hen
  exact ⟨vs, he, accepted_values ha ho hy he⟩

/-- A required argument with one value. -/
theorem required_one {ts : List ArgType} {m : Matches} (ha : Accepted ts m) (name : String) (l : Option String)
    (hd : ⟨name, l, true, .exactly 1, []⟩ ∈ ts.flatMap argDefs) (ho : oneDef ts ⟨name, l, true, .exactly 1, []⟩ = true)
    (hy : name ≠ "yes") : (m.valueOf name).isSome = true := by
  obtain ⟨vs, h1, h2⟩ := accepted_required ha hd ho hy rfl
  match vs, h2 with
  | [s], _ =>
    rw [(holds_valueOf ha.once name).1 s h1]
    rfl

/-- A required argument with three values. -/
theorem required_pos {ts : List ArgType} {m : Matches} (ha : Accepted ts m) (name : String) (ns : List String)
    (hd : ⟨name, some name, true, .exactly 3, ns⟩ ∈ ts.flatMap argDefs)
    (ho : oneDef ts ⟨name, some name, true, .exactly 3, ns⟩ = true)
    (hy : name ≠ "yes") {e : String} {r : Option Vec3} (h : optArg e (m.valuesOf name) argToPos = .ok r) :
    r.isSome = true := by
  obtain ⟨vs, h1, h2⟩ := accepted_required ha hd ho hy rfl
  rw [(valuesOf_iff ha.once).2 h1, optArg_iff] at h
  rcases h with ⟨h, -⟩ | ⟨a, b, -, -, rfl⟩
  · cases h
  · rfl

theorem areaOf_isSome {p1 p2 : Option Vec3} (h1 : p1.isSome = true) (h2 : p2.isSome = true) :
    (areaOf p1 p2).isSome = true := by
  obtain ⟨a, rfl⟩ := Option.isSome_iff_exists.1 h1
  obtain ⟨b, rfl⟩ := Option.isSome_iff_exists.1 h2
  rfl

/-- Whatever command line `clap` accepts: the command is known, its area is sorted, and everything the
command cannot do without is there; except for `setparam2` (C38). -/
theorem C70_arguments (yes : Bool) (name map : String) (m : Matches) (args : InstArgs) (c : Command)
    (hc : command? name = some c) (hs : name ≠ "setparam2") (ha : Accepted c.args m)
    (h : toInstArgs yes name map m = .ok args) : Parsed args ∧ Needs args := by
  obtain ⟨p1, p2, h1, h2, h3, -, h5⟩ := toInstArgs_fields h
  have hcmd : args.command = name := by rw [h5]
  have harea : args.area = areaOf p1 p2 := by rw [h5]
  have hmem : name ∈ commandNames := by
    unfold command? at hc
    rw [Option.map_eq_some_iff] at hc
    obtain ⟨e, he, -⟩ := hc
    have h1 := List.find?_some he
    rw [beq_iff_eq] at h1
    have h2 : e.1 ∈ commands.map (·.1) := List.mem_map_of_mem (List.mem_of_find?_eq_some he)
    rw [h1] at h2
    exact h2
  have hvalid : ∀ a, args.area = some a → a.isValid = true := by
    intro a hx
    rw [harea] at hx
    unfold areaOf at hx
    split at hx
    · cases hx; exact (C03_valid _ _).1
    · cases hx
  have hneeds : Needs args ∧ (args.command = "clone" → args.area ≠ none ∧ args.offset ≠ none) := by
    unfold Needs
    rw [hcmd]
    simp only [commandNames, List.mem_cons, List.not_mem_nil, or_false] at hmem
    rcases hmem with rfl | rfl | rfl | rfl | rfl | rfl | rfl | rfl | rfl | rfl | rfl | rfl
    · cases hc
      have ho := required_pos ha "offset" [] (by decide) (by decide) (by decide) h3
      have hA := areaOf_isSome (required_pos ha "p1" ["p2"] (by decide) (by decide) (by decide) h1)
        (required_pos ha "p2" ["p1"] (by decide) (by decide) (by decide) h2)
      rw [← harea] at hA
      exact ⟨⟨hA, ho⟩, fun _ => ⟨fun e => (by rw [e] at hA; cases hA), fun e => (by rw [e] at ho; cases ho)⟩⟩
    · cases hc
      have hA := areaOf_isSome (required_pos ha "p1" ["p2"] (by decide) (by decide) (by decide) h1)
        (required_pos ha "p2" ["p1"] (by decide) (by decide) (by decide) h2)
      rw [← harea] at hA
      exact ⟨hA, nofun⟩
    · exact ⟨trivial, nofun⟩
    · exact ⟨trivial, nofun⟩
    · exact ⟨trivial, nofun⟩
    · cases hc
      have hA := areaOf_isSome (required_pos ha "p1" ["p2"] (by decide) (by decide) (by decide) h1)
        (required_pos ha "p2" ["p1"] (by decide) (by decide) (by decide) h2)
      rw [← harea] at hA
      refine ⟨⟨hA, ?_⟩, nofun⟩
      rw [h5]
      exact required_one ha "new_node" none (by decide) (by decide) (by decide)
    · cases hc
      refine ⟨⟨?_, ?_⟩, nofun⟩
      · rw [h5]
        exact required_one ha "node" none (by decide) (by decide) (by decide)
      · rw [h5]
        exact required_one ha "new_node" none (by decide) (by decide) (by decide)
    · cases hc
      refine ⟨?_, nofun⟩
      rw [h5]
      exact required_one ha "item" none (by decide) (by decide) (by decide)
    · cases hc
      refine ⟨?_, nofun⟩
      rw [h5]
      exact required_one ha "input_map" none (by decide) (by decide) (by decide)
    · cases hc
      refine ⟨?_, nofun⟩
      rw [h5]
      exact required_one ha "key" none (by decide) (by decide) (by decide)
    · exact absurd rfl hs
    · exact ⟨trivial, nofun⟩
  exact ⟨⟨by rw [hcmd]; exact hmem, hvalid, hneeds.2⟩, hneeds.1⟩

/-- `mapeditr map clone --p1 1 1 1 --p2 0 0 0 --offset 0 -50 0`. -/
example : Accepted [.area true, .offset true]
      [("p1", ["1", "1", "1"]), ("p2", ["0", "0", "0"]), ("offset", ["0", "-50", "0"])] ∧
    (toInstArgs false "clone" "map" [("p1", ["1", "1", "1"]), ("p2", ["0", "0", "0"]),
      ("offset", ["0", "-50", "0"])]).toOption.map (fun a => (a.area, a.offset)) =
      some (some ⟨⟨0, 0, 0⟩, ⟨1, 1, 1⟩⟩, some ⟨0, -50, 0⟩) :=
  ⟨⟨by decide, by decide, by decide, by decide⟩, by decide⟩

/-- Without `--offset`, it is not accepted. -/
example : ¬ Accepted [.area true, .offset true] [("p1", ["1", "1", "1"]), ("p2", ["0", "0", "0"])] := by
  intro h
  exact absurd h.required (by decide)

/-- The commands are those of the manual, and each has exactly the arguments of its usage line: the
same plain arguments in the same order, and the same options. -/
theorem C71_manual (name : String) : (∃ c, command? name = some c) ↔ ∃ ws, (name, ws) ∈ manual := by
  constructor
  · rintro ⟨c, hc⟩
    unfold command? at hc
    rw [Option.map_eq_some_iff] at hc
    obtain ⟨e, he, -⟩ := hc
    have h1 := List.find?_some he
    rw [beq_iff_eq] at h1
    have h2 : e.1 ∈ commands.map (·.1) := List.mem_map_of_mem (List.mem_of_find?_eq_some he)
    rw [h1] at h2
    have h3 : ∀ n ∈ commands.map (·.1), n ∈ manual.map (·.1) := by
      show ∀ n ∈ commandNames, n ∈ manual.map (·.1)
      decide
    obtain ⟨⟨n, ws⟩, h4, h5⟩ := List.mem_map.1 (h3 _ h2)
    exact ⟨ws, by simp only at h5; rw [← h5]; exact h4⟩
  · rintro ⟨ws, h⟩
    have h3 : ∀ n ∈ manual.map (·.1), (command? n).isSome = true := by decide
    exact Option.isSome_iff_exists.1 (h3 _ (List.mem_map_of_mem (f := (·.1)) h))

def Written.isPlain : Written → Bool
  | .plain _ => true
  | _ => false

theorem C71_arguments (name : String) (ws : List Written) (c : Command) (h : (name, ws) ∈ manual)
    (hc : command? name = some c) :
    (((c.args.flatMap argDefs).map written).filter Written.isPlain = ws.filter Written.isPlain) ∧
    ∀ l r v, .option l r v ∈ (c.args.flatMap argDefs).map written ↔ .option l r v ∈ ws := by
  have hall : ∀ e ∈ manual, ∀ args ∈ (command? e.1).map (·.args),
      ((args.flatMap argDefs).map written).filter Written.isPlain = e.2.filter Written.isPlain ∧
      (∀ x ∈ (args.flatMap argDefs).map written, x ∈ e.2) ∧ ∀ x ∈ e.2, x ∈ (args.flatMap argDefs).map written := by
    decide
  obtain ⟨h1, h2, h3⟩ := hall _ h c.args (by rw [hc]; rfl)
  exact ⟨h1, fun l r v => ⟨h2 _, h3 _⟩⟩

example : ("overlay", [.plain true, .option "p1" false (.exactly 3), .option "p2" false (.exactly 3),
    .option "invert" false .flag, .option "offset" false (.exactly 3)]) ∈ manual := by decide

end MapEditr
