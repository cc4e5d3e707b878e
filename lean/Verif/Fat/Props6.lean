import Verif.Fat.Props5
import Verif.Driver.PathFacts
/-! C133: paths below the root directory; ReadFile of directories and missing files (C76); the parent in Remove (C54). -/
namespace Disko.Fat
open Disko ListLemmas
variable {σ : Type}

/-! ### Specification -/

/-- Names put together with a separator. -/
def glue (sep : UInt8) : List Str → Str
  | [] => []
  | [n] => n
  | n :: m :: ns => n ++ sep :: glue sep (m :: ns)

/-- From the directory that holds `es`, the names lead down to the directory `d`, which holds `sub`. -/
inductive LeadsTo (cfg : Cfg) (fs : FS σ) (st : σ) : List Dirent → List Str → Dirent → List Dirent → Prop where
  | here {es : List Dirent} {d : Dirent} {sub : List Dirent} : Only es d → DirHolds cfg fs st d sub true → LeadsTo cfg fs st es [d.name] d sub
  | down {es : List Dirent} {d : Dirent} {sub : List Dirent} {ns : List Str} {x : Dirent} {xs : List Dirent} : Only es d →
      DirHolds cfg fs st d sub true → LeadsTo cfg fs st sub ns x xs → LeadsTo cfg fs st es (d.name :: ns) x xs

/-- C133: Stat and Readdir of a directory named by its path from the root, the names separated by slashes, return its information and its entries
(decoded as the code decodes them). -/
def C133_statement_for (code : Cfg) : Prop :=
  ∀ (fs : FS ExState) (st : ExState) (es : List Dirent) (ns : List Str) (d : Dirent) (sub : List Dirent),
    fs.listRootDirectory st = .ok es → (∀ n ∈ ns, Path.Plain n) → LeadsTo code fs st es ns d sub →
    ∃ fuel, stat code fuel fs st (glue Path.slash ns) = .ret (.ok d.stat) ∧ readdir code fuel fs st (glue Path.slash ns) = .ret (.ok sub)

/-- C133, of the code with decoding repaired (as shipped no entry can be read, C131, and even the names cannot be compared). -/
def C133_statement : Prop := C133_statement_for (repaired toyCalendar)

/-! ### Helpers -/
namespace WalkLemmas

theorem glue_joinSlash : ∀ ns : List Str, glue Path.slash ns = Path.joinSlash ns
  | [] => rfl
  | [_] => rfl
  | n :: m :: ns => by rw [glue, Path.joinSlash, glue_joinSlash (m :: ns)]; simp

theorem plain_comp {n : Str} (h : Path.Plain n) : Driver.IsComp n := ⟨h.ne, h.notDot, h.noSlash⟩

theorem resolveDots_plain (r : Bool) : ∀ (cs acc : List Str), (∀ c ∈ cs, c ≠ Path.dotdot) → Path.resolveDots r acc cs = acc.reverse ++ cs := by
  intro cs
  induction cs with
  | nil => intro acc _; simp [Path.resolveDots]
  | cons c cs ih =>
    intro acc h
    unfold Path.resolveDots
    rw [if_neg (h c List.mem_cons_self), ih _ fun x hx => h x (List.mem_cons_of_mem _ hx)]
    simp

theorem clean_glue {ns : List Str} (hne : ns ≠ []) (h : ∀ n ∈ ns, Path.Plain n) : Path.clean (glue Path.slash ns) = glue Path.slash ns := by
  have hc : Path.comps (Path.joinSlash ns) = ns := Driver.comps_joinSlash ns fun n hn => plain_comp (h n hn)
  have ha : Path.isAbs (Path.joinSlash ns) = false :=
    Driver.not_isAbs (Driver.joinSlash_not_abs fun n hn => plain_comp (h n hn))
  rw [glue_joinSlash]
  unfold Path.clean
  rw [ha, hc, resolveDots_plain _ _ _ fun c hc => (h c hc).notDotDot]
  simp [hne]

theorem slash_mem_glue {ns : List Str} (h : 2 ≤ ns.length) (sep : UInt8) : sep ∈ glue sep ns := by
  match ns, h with
  | n :: m :: ns, _ => rw [glue]; simp

theorem not_mem_glue (sep x : UInt8) (hx : x ≠ sep) : ∀ ns : List Str, (∀ n ∈ ns, x ∉ n) → x ∉ glue sep ns
  | [], _ => by simp [glue]
  | [n], h => h n List.mem_cons_self
  | n :: m :: ns, h => by
    rw [glue, List.mem_append, List.mem_cons]
    rintro (h1 | h1 | h1)
    · exact h n List.mem_cons_self h1
    · exact hx h1
    · exact not_mem_glue sep x hx (m :: ns) (fun y hy => h y (List.mem_cons_of_mem _ hy)) h1

theorem split_append (sep : UInt8) (b : Str) : ∀ a : Str, sep ∉ a → Path.split sep (a ++ sep :: b) = a :: Path.split sep b
  | [], _ => by rw [List.nil_append, Path.split, if_pos rfl]
  | c :: a, h => by
    have h1 : c ≠ sep := fun e => h (e ▸ List.mem_cons_self)
    rw [List.cons_append, Path.split, if_neg h1, split_append sep b a fun e => h (List.mem_cons_of_mem _ e)]

theorem split_glue (sep : UInt8) : ∀ ns : List Str, ns ≠ [] → (∀ n ∈ ns, sep ∉ n) → Path.split sep (glue sep ns) = ns
  | [], h, _ => absurd rfl h
  | [n], _, h => Path.split_of_not_mem sep n (h n List.mem_cons_self)
  | n :: m :: ns, _, h => by
    rw [glue, split_append _ _ _ (h n List.mem_cons_self), split_glue sep (m :: ns) (by simp) fun x hx => h x (List.mem_cons_of_mem _ hx)]

theorem clean_colons {ns : List Str} (hne : ns ≠ []) (h : ∀ n ∈ ns, Path.Plain n) : Path.splitList (Path.clean (glue 58 ns)) = ns := by
  have hs : Path.slash ∉ glue 58 ns := not_mem_glue 58 Path.slash (by decide) ns fun n hn => (h n hn).noSlash
  have hclean : Path.clean (glue 58 ns) = glue 58 ns := by
    match ns, hne with
    | [n], _ => exact Path.clean_plain (h n List.mem_cons_self)
    | n :: m :: ns, _ =>
      have hc : (58 : UInt8) ∈ glue 58 (n :: m :: ns) := slash_mem_glue (by simp) 58
      have hd : glue 58 (n :: m :: ns) ≠ Path.dot := fun e => by rw [e] at hc; revert hc; decide
      have hdd : glue 58 (n :: m :: ns) ≠ Path.dotdot := fun e => by rw [e] at hc; revert hc; decide
      have hn : glue 58 (n :: m :: ns) ≠ [] := fun e => by rw [e] at hc; cases hc
      unfold Path.clean
      rw [Path.isAbs_plain hs, Driver.comps_comp ⟨hn, hd, hs⟩, resolveDots_plain _ _ _ (by simpa using hdd)]
      simp [Path.joinSlash]
  rw [hclean]
  unfold Path.splitList
  rw [if_neg, split_glue 58 ns hne fun n hn => (h n hn).noColon]
  intro e
  have := split_glue 58 ns hne fun n hn => (h n hn).noColon
  rw [e] at this
  have h2 : ns = [[]] := this.symm
  exact (h [] (by rw [h2]; exact List.mem_cons_self)).ne rfl

theorem walk_leads {cfg : Cfg} {fs : FS σ} {st : σ} {es : List Dirent} {ns : List Str} {d : Dirent} {sub : List Dirent}
    (h : LeadsTo cfg fs st es ns d sub) : ∃ n, ∀ fuel, n < fuel → (∀ cur, walk cfg fuel fs st ns cur es = .ret (.ok d)) ∧
      readDirFromDirent cfg fuel fs st d = .ret (.ok sub) := by
  induction h with
  | @here es d sub h1 h2 =>
    obtain ⟨n, hn⟩ := readDir_dir h2
    refine ⟨n, fun fuel hf => ⟨fun cur => ?_, by rw [hn fuel hf]; rfl⟩⟩
    unfold walk
    rw [match_only h1, hn fuel hf]
    rfl
  | @down es d sub ns x xs h1 h2 _ ih =>
    obtain ⟨n, hn⟩ := readDir_dir h2
    obtain ⟨m, hm⟩ := ih
    refine ⟨max n m, fun fuel hf => ⟨fun cur => ?_, (hm fuel (by omega)).2⟩⟩
    unfold walk
    rw [match_only h1, hn fuel (by omega)]
    exact (hm fuel (by omega)).1 d

theorem LeadsTo.isDir {cfg : Cfg} {fs : FS σ} {st : σ} {es : List Dirent} {ns : List Str} {d : Dirent} {sub : List Dirent}
    (h : LeadsTo cfg fs st es ns d sub) : d.isDir = true := by
  induction h with
  | here _ h2 => exact h2.1
  | down _ _ _ ih => exact ih

theorem LeadsTo.ne {cfg : Cfg} {fs : FS σ} {st : σ} {es : List Dirent} {ns : List Str} {d : Dirent} {sub : List Dirent}
    (h : LeadsTo cfg fs st es ns d sub) : ns ≠ [] := by cases h <;> simp

theorem resolve_leads {cfg : Cfg} {fs : FS σ} {st : σ} {es : List Dirent} {ns : List Str} {d : Dirent} {sub : List Dirent}
    (hl : fs.listRootDirectory st = .ok es) (hp : ∀ n ∈ ns, Path.Plain n) (h : LeadsTo cfg fs st es ns d sub) :
    ∃ n, ∀ fuel, n < fuel → resolvePathToDirent cfg fuel fs st (glue 58 ns) = .ret (.ok d) ∧ readDirFromDirent cfg fuel fs st d = .ret (.ok sub) := by
  obtain ⟨n, hn⟩ := walk_leads h
  refine ⟨n, fun fuel hf => ⟨?_, (hn fuel hf).2⟩⟩
  unfold resolvePathToDirent
  simp only
  rw [clean_colons (LeadsTo.ne h) hp, hl, if_neg (fun e => LeadsTo.ne h (List.length_eq_zero_iff.mp e))]
  exact (hn fuel hf).1 _

theorem walk_append {cfg : Cfg} {fs : FS σ} {st : σ} {es : List Dirent} {ns : List Str} {d : Dirent} {sub : List Dirent} (p : Str)
    (h : LeadsTo cfg fs st es ns d sub) (hp : ∀ e ∈ sub, e.name ≠ p) :
    ∃ n, ∀ fuel, n < fuel → ∀ cur, walk cfg fuel fs st (ns ++ [p]) cur es = .ret (.ok d) := by
  induction h with
  | @here es d sub h1 h2 =>
    obtain ⟨n, hn⟩ := readDir_dir h2
    refine ⟨n, fun fuel hf cur => ?_⟩
    rw [List.cons_append]
    unfold walk
    rw [match_only h1, hn fuel hf]
    exact walk_none _ _ _ (by simpa using hp)
  | @down es d sub ns x xs h1 h2 _ ih =>
    obtain ⟨n, hn⟩ := readDir_dir h2
    obtain ⟨m, hm⟩ := ih hp
    refine ⟨max n m, fun fuel hf cur => ?_⟩
    rw [List.cons_append]
    unfold walk
    rw [match_only h1, hn fuel (by omega)]
    exact hm fuel (by omega) d

end WalkLemmas
open WalkLemmas

/-! ### C133 -/

/-- C133, however decoding is repaired: with names separated by colons instead of slashes, Stat and Readdir find directories at any depth. -/
theorem C133_colons_partial (cfg : Cfg) (fs : FS σ) (st : σ) (es : List Dirent) (ns : List Str) (d : Dirent) (sub : List Dirent)
    (hl : fs.listRootDirectory st = .ok es) (hp : ∀ n ∈ ns, Path.Plain n) (h : LeadsTo cfg fs st es ns d sub) :
    ∃ n, ∀ fuel, n < fuel → stat cfg fuel fs st (glue 58 ns) = .ret (.ok d.stat) ∧ readdir cfg fuel fs st (glue 58 ns) = .ret (.ok sub) := by
  obtain ⟨n, hn⟩ := resolve_leads hl hp h
  refine ⟨n, fun fuel hf => ?_⟩
  unfold stat readdir
  rw [(hn fuel hf).1]
  simp only [R.andThen]
  rw [if_neg (by simp [LeadsTo.isDir h]), (hn fuel hf).2]
  exact ⟨trivial, rfl⟩

/-- C133: a path of two or more names separated by slashes is never followed: Stat returns the empty information, Readdir "not a directory". -/
theorem C133_slashes_find_nothing (cfg : Cfg) (fs : FS σ) (st : σ) (es : List Dirent) (ns : List Str) (fuel : Nat)
    (hl : fs.listRootDirectory st = .ok es) (hs : ∀ e ∈ es, Path.slash ∉ e.name) (hp : ∀ n ∈ ns, Path.Plain n) (h2 : 2 ≤ ns.length) :
    stat cfg fuel fs st (glue Path.slash ns) = .ret (.ok noInformation) ∧
    readdir cfg fuel fs st (glue Path.slash ns) = .ret (.error .notADirectory) := by
  have hne : ns ≠ [] := by rintro rfl; simp at h2
  have hsp : Path.splitList (Path.clean (glue Path.slash ns)) = [glue Path.slash ns] := by
    rw [clean_glue hne hp]
    unfold Path.splitList
    have hm := slash_mem_glue h2 Path.slash
    rw [if_neg (fun e => by rw [e] at hm; cases hm), Path.split_of_not_mem]
    exact not_mem_glue Path.slash 58 (by decide) ns fun n hn => (hp n hn).noColon
  have hr : resolvePathToDirent cfg fuel fs st (glue Path.slash ns) = .ret (.ok Dirent.zero) := by
    unfold resolvePathToDirent
    simp only
    rw [hsp, hl]
    refine walk_none _ _ _ ?_
    intro p hp' e he heq
    have : p = glue Path.slash ns := by simpa using hp'
    exact hs e he (by rw [heq, this]; exact slash_mem_glue h2 Path.slash)
  unfold stat readdir
  rw [hr]
  exact ⟨rfl, rfl⟩

/-- C133: a name that is not in the directory reached is ignored: the path stands for the directory above it. -/
theorem C133_missing_name_ignored (cfg : Cfg) (fs : FS σ) (st : σ) (es : List Dirent) (ns : List Str) (d : Dirent) (sub : List Dirent) (p : Str)
    (hl : fs.listRootDirectory st = .ok es) (hp : ∀ n ∈ ns ++ [p], Path.Plain n) (h : LeadsTo cfg fs st es ns d sub) (hm : ∀ e ∈ sub, e.name ≠ p) :
    ∃ n, ∀ fuel, n < fuel → stat cfg fuel fs st (glue 58 (ns ++ [p])) = .ret (.ok d.stat) ∧
      readdir cfg fuel fs st (glue 58 (ns ++ [p])) = .ret (.ok sub) := by
  obtain ⟨n, hn⟩ := walk_append p h hm
  obtain ⟨m, hm'⟩ := walk_leads h
  refine ⟨max n m, fun fuel hf => ?_⟩
  have hr : resolvePathToDirent cfg fuel fs st (glue 58 (ns ++ [p])) = .ret (.ok d) := by
    unfold resolvePathToDirent
    simp only
    rw [clean_colons (by simp) hp, hl, if_neg (by simp)]
    exact hn fuel (by omega) _
  unfold stat readdir
  rw [hr]
  simp only [R.andThen]
  rw [if_neg (by simp [LeadsTo.isDir h]), (hm' fuel (by omega)).2]
  exact ⟨trivial, rfl⟩

/-! The example volume with a directory INNER in the directory OUTER. -/

/-- The slot of the directory INNER. -/
def exInnerSlot : Bytes := (str! "INNER   ") ++ (str! "   ") ++ [16, 0, 0, 0, 96, 252, 80, 252, 80, 0, 0, 1, 96, 252, 80, 5, 0, 0, 0, 0, 0]
/-- OUTER is in cluster 3, INNER in cluster 5. -/
def exNestFS : FS ExState :=
  { exFS with readAt := fun _ off _ => (if off = (15 + 3) * 512 then exInnerSlot ++ List.replicate 480 0 else exCluster, none) }
/-- OUTER -/
def exOuter : Dirent := { Dirent.zero with name := str! "OUTER", firstCluster := 3, mode := modeDir }
/-- The tables. -/
def exNestState : ExState := ⟨[0, 0, 0xFFF, 0xFFF, 0xFFF, 0xFFF], [exOuter], []⟩
/-- INNER's entry -/
def exInner : Dirent :=
  (((slotsEval (repaired toyCalendar) exampleBoot (slotsOf 16 (exInnerSlot ++ List.replicate 480 0))).getD ([], false)).1.head?).getD Dirent.zero

theorem exOuterHolds : DirHolds (repaired toyCalendar) exNestFS exNestState exOuter [exInner] true :=
  ⟨by decide, [3], .last (by decide) (by decide) (show _ = Except.ok (0xFFF : UInt32) by decide) (by decide),
    .mark (data := exInnerSlot ++ List.replicate 480 0) (by decide +kernel) (slots_eval' (by decide +kernel))⟩
theorem exInnerHolds : DirHolds (repaired toyCalendar) exNestFS exNestState exInner exEntries true :=
  ⟨by decide +kernel, [5], (show exInner.firstCluster = 5 by decide +kernel) ▸
    .last (by decide) (by decide) (show _ = Except.ok (0xFFF : UInt32) by decide) (by decide), .mark (data := exCluster) (by decide +kernel) exSlots⟩
theorem exInner_name : exInner.name = str! "INNER" := by decide +kernel
theorem exLeads : LeadsTo (repaired toyCalendar) exNestFS exNestState exNestState.root [str! "OUTER", str! "INNER"] exInner exEntries := by
  have h : LeadsTo (repaired toyCalendar) exNestFS exNestState exNestState.root (exOuter.name :: [exInner.name]) exInner exEntries :=
    .down ⟨[], [], rfl, by decide, by decide⟩ exOuterHolds (.here ⟨[], [], rfl, by simp, by simp⟩ exInnerHolds)
  rw [exInner_name] at h
  exact h
theorem exNestPlain : ∀ n ∈ [str! "OUTER", str! "INNER"], Path.Plain n := by
  intro n hn
  rcases List.mem_cons.mp hn with rfl | hn
  · exact ⟨by decide, by decide, by decide, by decide, by decide⟩
  · rcases List.mem_cons.mp hn with rfl | hn
    · exact ⟨by decide, by decide, by decide, by decide, by decide⟩
    · cases hn

theorem C133_refuted : ¬ C133_statement := by
  intro h
  obtain ⟨fuel, h1, h2⟩ := h exNestFS exNestState exNestState.root _ exInner exEntries rfl exNestPlain exLeads
  rw [(C133_slashes_find_nothing (repaired toyCalendar) exNestFS exNestState exNestState.root _ fuel rfl (by decide) exNestPlain (by decide)).2] at h2
  cases h2

/-- With a colon it works; with a slash it does not; a missing name is ignored. -/
example : (match readdir (repaired toyCalendar) 3 exNestFS exNestState (str! "OUTER:INNER") with
    | .ret (.ok ds) => decide (ds = exEntries)
    | _ => false) = true := by decide +kernel
example : stat (repaired toyCalendar) 3 exNestFS exNestState (str! "OUTER/INNER") = .ret (.ok noInformation) := by decide +kernel
example : (match readdir (repaired toyCalendar) 3 exNestFS exNestState (str! "OUTER:NOSUCH") with
    | .ret (.ok ds) => decide (ds = [exInner])
    | _ => false) = true := by decide +kernel

/-! ### C76: ReadFile of directories and of files that do not exist -/

/-- C76: ReadFile of a directory says so. -/
theorem C76_directory_partial (cfg : Cfg) (fs : FS σ) (st : σ) (es : List Dirent) (ns : List Str) (d : Dirent) (sub : List Dirent)
    (hl : fs.listRootDirectory st = .ok es) (hp : ∀ n ∈ ns, Path.Plain n) (h : LeadsTo cfg fs st es ns d sub) :
    ∃ n, ∀ fuel, n < fuel → readFile cfg fuel fs st (glue 58 ns) = .ret (.error .isADirectory) := by
  obtain ⟨n, hn⟩ := resolve_leads hl hp h
  refine ⟨n, fun fuel hf => ?_⟩
  unfold readFile
  rw [(hn fuel hf).1]
  simp only [R.andThen]
  rw [if_pos (LeadsTo.isDir h)]

/-- C76: ReadFile of a path of which no part is in the root directory does not fail with "not found": it follows the chain that begins at cluster 0.
If 0 is not a valid cluster the error is "invalid argument"; if 0 ends a chain, the file is found and empty; otherwise, if the chain has one
cluster, it is found and empty too, and if it has more, reading panics. -/
theorem C76_missing (cfg : Cfg) (fs : FS σ) (st : σ) (es : List Dirent) (path : Str)
    (hl : fs.listRootDirectory st = .ok es) (h : ∀ p ∈ Path.splitList (Path.clean path), ∀ e ∈ es, e.name ≠ p) (hb : 0 < fs.bootSector.bytesPerCluster) :
    (fs.isValidCluster 0 = false → ∀ fuel, readFile cfg fuel fs st path = .ret (.error .invalidArgument)) ∧
    (fs.isValidCluster 0 = true → fs.isEndOfChain 0 = true → ∀ fuel, 0 < fuel → readFile cfg fuel fs st path = .ret (.ok [])) ∧
    (∀ data, EndMarksValid fs → Chain fs st 0 [0] → readCluster fs st 0 = .ok data → ∀ fuel, 1 < fuel → readFile cfg fuel fs st path = .ret (.ok [])) ∧
    (∀ c cs data data', EndMarksValid fs → Chain fs st 0 (0 :: c :: cs) → readCluster fs st 0 = .ok data → readCluster fs st c = .ok data' →
      ∀ fuel, cs.length + 2 < fuel → readFile cfg fuel fs st path = .panic) := by
  have hne : (Path.splitList (Path.clean path)).length ≠ 0 := by
    unfold Path.splitList
    rw [if_neg (Path.clean_ne_nil path)]
    exact fun e => Path.split_ne_nil _ _ (List.length_eq_zero_iff.mp e)
  have hr : ∀ fuel, resolvePathToDirent cfg fuel fs st path = .ret (.ok Dirent.zero) := by
    intro fuel
    unfold resolvePathToDirent
    simp only
    rw [if_neg hne, hl]
    exact walk_none _ _ _ h
  have hrf : ∀ fuel, readFile cfg fuel fs st path = R.andThen (listClusters fuel fs st 0) fun cs => readFileLoop fs st cs 0 [] := by
    intro fuel
    unfold readFile
    rw [hr fuel]
    rfl
  refine ⟨fun hv fuel => ?_, fun hv he fuel hf => ?_, fun data hv hc hd fuel hf => ?_, fun c cs data data' hv hc h1 h2 fuel hf => ?_⟩
  · rw [hrf, C52_invalid_start fs st 0 fuel hv]; rfl
  · rw [hrf]
    match fuel, hf with
    | fuel + 1, _ =>
      unfold listClusters listLoop
      rw [if_neg (by simp [hv]), if_pos he]
      rfl
  · rw [hrf, C52_lists_chain fs st hv 0 [0] hc fuel hf]
    simp only [R.andThen]
    unfold readFileLoop
    rw [hd]
    simp only
    rw [if_pos (by omega), if_neg (by omega)]
    rfl
  · rw [hrf, C52_lists_chain fs st hv 0 _ hc fuel (by simpa using hf)]
    simp only [R.andThen]
    unfold readFileLoop
    rw [h1]
    simp only
    rw [if_pos (by omega), if_neg (by omega)]
    unfold readFileLoop
    rw [h2]
    simp only
    rw [if_pos (by omega), if_pos (.inl (by omega))]

example : readFile shipped 9 exFS exState2 (str! "NO.SUC") = .panic := by decide +kernel
example : readFile shipped 9 { exFS with isValidCluster := fun c => 2 ≤ c } exState2 (str! "NO.SUC") = .ret (.error .invalidArgument) := by decide +kernel

/-! ### C54: Remove -/

/-- C54: Remove of a directory says so and changes nothing. -/
theorem C54_directory_partial (cfg : Cfg) (fs : FS σ) (st : σ) (es : List Dirent) (ns : List Str) (d : Dirent) (sub : List Dirent)
    (hl : fs.listRootDirectory st = .ok es) (hp : ∀ n ∈ ns, Path.Plain n) (h : LeadsTo cfg fs st es ns d sub) :
    ∃ n, ∀ fuel, n < fuel → remove cfg fuel fs st (glue 58 ns) = .ret (st, some .isADirectory) := by
  obtain ⟨n, hn⟩ := resolve_leads hl hp h
  refine ⟨n, fun fuel hf => ?_⟩
  unfold remove
  rw [(hn fuel hf).1]
  simp only [W.from]
  rw [if_pos (LeadsTo.isDir h)]

/-- C54: the parent that a successful Remove passes on is what Stat finds for the directory part of the path. -/
theorem C54_parent_partial (cfg : Cfg) (fs : FS σ) (st st' : σ) (path : Str) (fuel : Nat) (h : remove cfg fuel fs st path = .ret (st', none)) :
    ∃ parent st1, stat cfg fuel fs st (Path.dir path) = .ret (.ok parent.stat) ∧ (parent = Dirent.zero ∨ parent.isDir = true) ∧
      fs.deleteDirent st Dirent.zero parent = (st1, none) := by
  unfold remove at h
  obtain ⟨d, h1, h2⟩ := W.from_ret h
  split at h2
  · cases h2
  · rename_i hd
    have hz : d = Dirent.zero := by
      rcases resolve_cases h1 with h3 | h3
      · exact h3
      · exact absurd h3 (by simpa using hd)
    subst hz
    obtain ⟨parent, hpar, h4⟩ := W.from_ret h2
    split at h4
    · cases h4
    · rename_i st1 hdel
      refine ⟨parent, st1, ?_, resolve_cases hpar, hdel⟩
      unfold stat
      rw [hpar]
      rfl

/-- Removing SUB/A deletes the empty entry from SUB. -/
example : (match remove (repaired toyCalendar) 9
    { exDirFS with deleteDirent := fun s d p => (s, if d.name = [] ∧ p.name = str! "SUB" then none else some .ioFailed), isEndOfChain := fun c => c == 0xFFF || c == 0 }
    exDirState (str! "SUB/A") with
    | .ret (st', none) => decide (st' = exDirState)
    | _ => false) = true := by decide +kernel

end Disko.Fat
