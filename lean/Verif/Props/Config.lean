import Verif.Model.Config
import Mathlib.Data.Set.Finite.List
import Mathlib.Data.Fintype.EquivFin

/-!
# Configuration and cached files (C259, C260)
-/

namespace Verif.Config
open Verif.Py

/-! ## Where files are looked for -/

/-- **C259**: the configuration is that of the file named by the environment, and of `config.ini` in the package if none is named -/
theorem config_spec {S : Type} (file : Str → Option S) (env : Str → Option Str) (pkg : Str) :
    (∀ f, env c!"GETDIST_CONFIG" = some f → f ≠ [] → getConfig file env pkg = file f) ∧
    ((env c!"GETDIST_CONFIG").getD [] = [] → getConfig file env pkg = file (Path.join pkg c!"config.ini")) := by
  unfold getConfig configFile
  constructor
  · intro f hf hne
    rw [hf]
    dsimp only
    rw [if_neg hne]
  · intro h
    split
    · rfl
    next f hf =>
      rw [hf] at h
      rw [if_pos (by simpa using h)]

example : getConfig (fun f => some f) (fun _ => none) c!"/usr/lib/getdist" = some c!"/usr/lib/getdist/config.ini" := by decide +kernel

theorem join_name (a b : Str) (h : startsWith ['/'] b = false) : ∃ s, Path.join a b = s ++ b ∧ (s = a ∨ s = a ++ ['/']) := by
  unfold Path.join
  rw [if_neg (by rw [h]; decide)]
  split
  · exact ⟨a, rfl, .inl rfl⟩
  · exact ⟨a ++ ['/'], by simp, .inr rfl⟩

/-- **C259**: the cache is `getdist_cache` in the directory of caches of the platform -/
theorem defaultCache_spec (p : Platform) (env : Str → Option Str) (home tmp : Str) :
    ∃ d, (defaultCache p env home tmp = d ++ c!"getdist_cache" ∨ defaultCache p env home tmp = d ++ c!"/getdist_cache") ∧
      (p = .darwin → d = home ++ c!"/Library/Caches") ∧ (p = .win32 → d = tmp) ∧
      (p = .other → env c!"XDG_CACHE_HOME" = none → d = home ++ c!"/.cache") ∧ (∀ x, p = .other → env c!"XDG_CACHE_HOME" = some x → d = x) := by
  unfold defaultCache
  obtain ⟨s, e, h⟩ := join_name (cacheRoot p env home tmp) c!"getdist_cache" (by decide +kernel)
  refine ⟨cacheRoot p env home tmp, ?_, ?_, ?_, ?_, ?_⟩
  · rw [e]
    rcases h with rfl | rfl
    · exact .inl rfl
    · exact .inr (by rw [List.append_assoc]; rfl)
  · rintro rfl; rfl
  · rintro rfl; rfl
  · rintro rfl h; unfold cacheRoot; dsimp only; rw [h]; rfl
  · rintro x rfl h; unfold cacheRoot; dsimp only; rw [h]; rfl

example : defaultCache .other (fun _ => none) c!"/home/me" c!"/tmp" = c!"/home/me/.cache/getdist_cache" ∧
    defaultCache .darwin (fun _ => some c!"/x") c!"/Users/me" c!"/tmp" = c!"/Users/me/Library/Caches/getdist_cache" := by decide +kernel

/-- **C259**: a cache directory that is given back is there and is the one that was asked for; there is none only if it cannot be made;
nothing else is changed -/
theorem makeCacheDir_spec (can : Bool) (fs : Str → Option Node) (cache : Str) :
    (∀ d, (makeCacheDir can fs cache).2 = some d → d = cache ∧ d ≠ [] ∧ ((makeCacheDir can fs cache).1 d).isSome) ∧
    ((makeCacheDir can fs cache).2 = none ↔ cache = [] ∨ (fs cache = none ∧ can = false)) ∧
    (∀ q, q ≠ cache ∨ (fs q).isSome → (makeCacheDir can fs cache).1 q = fs q) := by
  unfold makeCacheDir makedirs
  dsimp only
  refine ⟨?_, ?_, ?_⟩
  · intro d h
    by_cases hc : cache ≠ [] ∧ ((if cache ≠ [] then fun q => if q = cache ∧ fs cache = none ∧ can = true then some Node.dir else fs q else fs) cache).isSome
    · rw [if_pos hc] at h
      injection h with h
      subst h
      exact ⟨rfl, hc.1, hc.2⟩
    · rw [if_neg hc] at h
      cases h
  · by_cases hc : cache = []
    · simp [hc]
    · cases hf : fs cache <;> cases can <;> simp [hc, hf]
  · intro q h
    by_cases hc : cache = []
    · simp [hc]
    · rw [if_pos hc]
      split
      next h2 =>
        rcases h with h | h
        · exact absurd h2.1 h
        · rw [h2.1, h2.2.1] at h; cases h
      · rfl

example : (makeCacheDir true (fun _ => none) c!"/c").2 = some c!"/c" ∧ (makeCacheDir true (fun _ => none) c!"/c").1 c!"/c" = some .dir ∧
    (makeCacheDir false (fun _ => none) c!"/c").2 = none := by decide +kernel

/-- **C260 fails**: a configuration file that is named but is not there is not reported: the configuration is empty (getdist/__init__.py:33-36) -/
theorem missing_config_fails {S : Type} (file : Str → Option S) (env : Str → Option Str) (pkg f : Str) (he : env c!"GETDIST_CONFIG" = some f)
    (hne : f ≠ []) (hf : file f = none) : getConfig file env pkg = none := by
  rw [(config_spec file env pkg).1 f he hne, hf]

example : getConfig (S := Nat) (fun f => if f = c!"/pkg/config.ini" then some 1 else none) (fun _ => some c!"/home/me/confg.ini") c!"/pkg" = none := by
  decide +kernel

/-- **C260 fails**: with an empty `XDG_CACHE_HOME` the cache is in the working directory (getdist/__init__.py:46) -/
theorem empty_xdg_fails (env : Str → Option Str) (home tmp : Str) (h : env c!"XDG_CACHE_HOME" = some []) :
    defaultCache .other env home tmp = c!"getdist_cache" := by
  unfold defaultCache cacheRoot
  dsimp only
  rw [h]
  rfl

example : defaultCache .other (fun _ => some []) c!"/home/me" c!"/tmp" = c!"getdist_cache" := by decide +kernel

/-- **C260 fails**: a file in the place of the cache is given back as the directory (getdist/__init__.py:56) -/
theorem file_as_dir_fails (can : Bool) (fs : Str → Option Node) (cache : Str) (hne : cache ≠ []) (h : fs cache = some .file) :
    (makeCacheDir can fs cache).2 = some cache ∧ (makeCacheDir can fs cache).1 cache = some .file := by
  unfold makeCacheDir makedirs
  simp [hne, h]

example : (makeCacheDir true (fun _ => some .file) c!"/c").2 = some c!"/c" := by decide +kernel

/-! ## Stored grids -/

/-- **C259**: the cached object of a grid that was stored is found, as long as its directory is there; after a reset it is not; grids with
other cache files are not changed -/
theorem cached_spec {G : Type} (hash : Str → Str) (cache : Str) (store : Str → Option G) (exist : Str → Bool) (base : G → Str) (dir : Str) (g : G) :
    (exist (base g) = true → cached hash cache (save hash cache store dir g) exist base dir = some g) ∧
    (exist (base g) = false → cached hash cache (save hash cache store dir g) exist base dir = none) ∧
    cached hash cache (reset hash cache store dir) exist base dir = none ∧
    (∀ d, gridCacheFile hash cache d ≠ gridCacheFile hash cache dir →
      cached hash cache (save hash cache store dir g) exist base d = cached hash cache store exist base d ∧
      cached hash cache (reset hash cache store dir) exist base d = cached hash cache store exist base d) := by
  unfold cached save reset
  refine ⟨?_, ?_, ?_, ?_⟩
  · intro h; simp [h]
  · intro h; simp [h]
  · simp
  · intro d h; simp [h]

/-- **C259**: without a cache directory grids of different directories have different files (each in its directory), and with one the file is in it -/
theorem gridCacheFile_spec (hash : Str → Str) (cache dir : Str) :
    (cache = [] → ∃ s, gridCacheFile hash cache dir = s ++ c!"batch.pyobj" ∧ (s = dir ∨ s = dir ++ ['/'])) ∧
    (cache ≠ [] → ∃ s, gridCacheFile hash cache dir = s ++ c!"_batch_" ++ (hash dir).take 10 ++ c!".pyobj" ∧ (s = cache ∨ s = cache ++ ['/'])) := by
  unfold gridCacheFile
  constructor
  · intro h
    rw [if_neg (by simp [h])]
    exact join_name _ _ (by decide +kernel)
  · intro h
    rw [if_pos h]
    obtain ⟨s, e, hs⟩ := join_name cache (c!"_batch_" ++ (hash dir).take 10) rfl
    exact ⟨s, by rw [e]; simp, hs⟩

example : gridCacheFile (fun _ => c!"0123456789abcdef") c!"/c" c!"/grids/main" = c!"/c/_batch_0123456789.pyobj" ∧
    gridCacheFile (fun _ => c!"0123456789abcdef") [] c!"/grids/main" = c!"/grids/main/batch.pyobj" := by decide +kernel

/-- **C259**: without a cache directory, directories that are written without a slash at the end have files of their own -/
theorem gridCacheFile_inj (hash : Str → Str) (d1 d2 : Str) (h1 : endsWith ['/'] d1 = false) (h2 : endsWith ['/'] d2 = false) (n1 : d1 ≠ []) (n2 : d2 ≠ [])
    (h : gridCacheFile hash [] d1 = gridCacheFile hash [] d2) : d1 = d2 := by
  unfold gridCacheFile at h
  rw [if_neg (by simp), if_neg (by simp)] at h
  unfold Path.join at h
  rw [if_neg (show ¬ (startsWith ['/'] c!"batch.pyobj" = true) by decide +kernel), if_neg (show ¬ (d1 = [] ∨ endsWith ['/'] d1 = true) by simp [n1, h1]),
    if_neg (show ¬ (startsWith ['/'] c!"batch.pyobj" = true) by decide +kernel), if_neg (show ¬ (d2 = [] ∨ endsWith ['/'] d2 = true) by simp [n2, h2])] at h
  exact List.append_cancel_right h

instance : Finite Char := Finite.of_injective (fun c : Char => (⟨c.val.toNat, c.val.toNat_lt⟩ : Fin (2 ^ 32))) (by
  intro a b h
  exact Char.ext (UInt32.toNat_inj.mp (congrArg Fin.val h)))

/-- **C260 fails**: cache files are named by ten digits of a hash and the stored grid is not compared with the directory that is asked for, so there
are two directories of which one has the grid of the other (batchjob.py:19-20, 49-53) -/
theorem other_grid_fails {G : Type} (hash : Str → Str) (cache : Str) (hc : cache ≠ []) (store : Str → Option G) (exist : Str → Bool) (base : G → Str) :
    ∃ d1 d2, d1 ≠ d2 ∧ ∀ g, exist (base g) = true → base g = d1 → cached hash cache (save hash cache store d1 g) exist base d2 = some g := by
  have hfin : (Set.range (fun n : Nat => (hash (c!"/" ++ List.replicate n 'a')).take 10)).Finite := by
    refine (List.finite_length_le Char 10).subset ?_
    rintro _ ⟨n, rfl⟩
    simp
  obtain ⟨m, n, hmn, he⟩ : ∃ m n : Nat, m ≠ n ∧ (hash (c!"/" ++ List.replicate m 'a')).take 10 = (hash (c!"/" ++ List.replicate n 'a')).take 10 := by
    by_contra hno
    push Not at hno
    have hinj : Function.Injective (fun n : Nat => (hash (c!"/" ++ List.replicate n 'a')).take 10) := by
      intro a b hab
      by_contra hne
      exact hno a b hne hab
    exact Set.infinite_range_of_injective hinj hfin
  refine ⟨c!"/" ++ List.replicate m 'a', c!"/" ++ List.replicate n 'a', ?_, ?_⟩
  · intro h
    have := congrArg List.length h
    simp at this
    exact hmn this
  · intro g hg _
    have hf : gridCacheFile hash cache (c!"/" ++ List.replicate m 'a') = gridCacheFile hash cache (c!"/" ++ List.replicate n 'a') := by
      unfold gridCacheFile
      rw [if_pos hc, if_pos hc, he]
    unfold cached save
    rw [if_pos hf.symm]
    simp [hg]

example : cached (fun d => d.drop 1) c!"/c" (save (fun d => d.drop 1) c!"/c" (fun _ => none) c!"/scr/grid1" c!"/scr/grid1") (fun _ => true) id c!"/scr/grid2" =
    none ∧ cached (fun d => d.drop 1) c!"/c" (save (fun d => d.drop 1) c!"/c" (fun _ => none) c!"/scratch/gr_one" c!"/scratch/gr_one") (fun _ => true) id
      c!"/scratch/gr_two" = some c!"/scratch/gr_one" := by decide +kernel

/-- **C260**: without a cache directory the stored grid found is the one that was stored for the directory (missing: cache files of a hash) -/
theorem own_grid_partial {G : Type} (hash : Str → Str) (store : Str → Option G) (exist : Str → Bool) (base : G → Str) (d1 d2 : Str) (g : G)
    (h1 : endsWith ['/'] d1 = false) (h2 : endsWith ['/'] d2 = false) (n1 : d1 ≠ []) (n2 : d2 ≠ []) (hne : d1 ≠ d2) :
    cached hash [] (save hash [] store d1 g) exist base d2 = cached hash [] store exist base d2 :=
  ((cached_spec hash [] store exist base d1 g).2.2.2 d2 (fun h => hne (gridCacheFile_inj hash d1 d2 h1 h2 n1 n2 h.symm))).1

/-! ## The template of parameter files -/

/-- **C259**: the written file is the template with the defaults in the place of the mark -/
theorem paramFile_spec (a b analysis : Str) (ha : contains mark (a ++ mark.dropLast) = false) (hb : contains mark b = false) :
    paramFile (a ++ mark ++ b) analysis = a ++ analysis ++ b := by
  unfold paramFile
  rw [List.append_assoc, replaceStr_append, replaceStr_match _ _ (by decide), replaceStr_none hb, List.append_assoc]
  intro a1 a2 e hne
  rw [Bool.eq_false_iff]
  intro hs
  obtain ⟨t, ht⟩ := startsWith_iff.mp hs
  have hp : mark <+: a2 ++ mark.dropLast := by
    have h1 : mark <+: a2 ++ (mark ++ b) := ⟨t, ht.symm⟩
    have h2 : a2 ++ mark.dropLast <+: a2 ++ (mark ++ b) := by
      refine ⟨[mark.getLast (by decide)] ++ b, ?_⟩
      rw [List.append_assoc, ← List.append_assoc mark.dropLast, List.dropLast_append_getLast]
    refine List.prefix_of_prefix_length_le h1 h2 ?_
    have : 0 < a2.length := List.length_pos_iff.mpr hne
    rw [List.length_append, List.length_dropLast]
    omega
  obtain ⟨u, hu⟩ := hp
  have : contains mark (a ++ mark.dropLast) = true := contains_iff.mpr ⟨a1, u, by rw [e, List.append_assoc, List.append_assoc, hu]⟩
  rw [ha] at this
  cases this

example : paramFile c!"root=\n%%%ANALYSIS_DEFAULTS%%%\nplot=T\n" c!"ignore_rows=0.3" = c!"root=\nignore_rows=0.3\nplot=T\n" := by decide +kernel

/-! ## Sizes of files that are removed -/

/-- **C259**: sizes below a terabyte are given in whole units -/
theorem fsizestr_spec (bytes : Nat) (h : bytes < 1024 ^ 4) : ∃ k u, fsizestr bytes = some (strNat k ++ u) ∧ k < 1024 ∧
    ((u = c!"KB" ∧ k * 1024 ≤ bytes ∧ bytes < (k + 1) * 1024) ∨ (u = c!"MB" ∧ 0 < k ∧ k * 1024 ^ 2 ≤ bytes ∧ bytes < (k + 1) * 1024 ^ 2) ∨
      (u = c!"GB" ∧ 0 < k ∧ k * 1024 ^ 3 ≤ bytes ∧ bytes < (k + 1) * 1024 ^ 3)) := by
  unfold fsizestr
  dsimp only
  split
  · exact ⟨_, _, rfl, by omega, .inl ⟨rfl, by omega, by omega⟩⟩
  · split
    · exact ⟨_, _, rfl, by omega, .inr (.inl ⟨rfl, by omega, by omega, by omega⟩)⟩
    · split
      · exact ⟨_, _, rfl, by omega, .inr (.inr ⟨rfl, by omega, by omega, by omega⟩)⟩
      · omega

example : fsizestr 123456789 = some c!"117MB" ∧ fsizestr 100 = some c!"0KB" := by decide +kernel

/-- **C259**: with sizes below a terabyte all matching files are listed, and they are removed exactly if this is confirmed -/
theorem cleanLoop_spec (confirm : Bool) : ∀ (l : List (Str × Nat)), (∀ f ∈ l, f.2 < 1024 ^ 4) →
    (cleanLoop confirm l).1.length = l.length ∧ (cleanLoop confirm l).2.1 = (if confirm then l.map (·.1) else []) ∧ (cleanLoop confirm l).2.2 = none
  | [], _ => by cases confirm <;> exact ⟨rfl, rfl, rfl⟩
  | (f, n) :: l, h => by
    obtain ⟨h1, h2, h3⟩ := cleanLoop_spec confirm l (fun x hx => h x (List.mem_cons_of_mem _ hx))
    obtain ⟨k, u, e, -⟩ := fsizestr_spec n (h (f, n) (by simp))
    unfold cleanLoop
    rw [e]
    dsimp only
    refine ⟨by simp [h1], ?_, h3⟩
    rw [h2]
    cases confirm <;> rfl

example : cleanLoop true [(c!"a.txt", 2048), (c!"b.txt", 0)] = ([c!"a.txt  (2KB)", c!"b.txt  (0KB)"], [c!"a.txt", c!"b.txt"], none) := by decide +kernel

/-- **C260 fails**: with a file of a terabyte the clean-up stops with an error; it and the files after it are not removed (cleanup.py:20-26, 45) -/
theorem huge_file_fails (confirm : Bool) (f : Str) (n : Nat) (hn : 1024 ^ 4 ≤ n) : ∀ (l l' : List (Str × Nat)), (∀ x ∈ l, x.2 < 1024 ^ 4) →
    (cleanLoop confirm (l ++ (f, n) :: l')).2.1 = (if confirm then l.map (·.1) else []) ∧ (cleanLoop confirm (l ++ (f, n) :: l')).2.2 = some .type
  | [], l', _ => by
    have e : fsizestr n = none := by
      unfold fsizestr
      dsimp only
      rw [if_neg (by omega), if_neg (by omega), if_neg (by omega)]
    rw [List.nil_append]
    unfold cleanLoop
    rw [e]
    cases confirm <;> exact ⟨rfl, rfl⟩
  | (g, m) :: l, l', h => by
    obtain ⟨h2, h3⟩ := huge_file_fails confirm f n hn l l' (fun x hx => h x (List.mem_cons_of_mem _ hx))
    obtain ⟨k, u, e, -⟩ := fsizestr_spec m (h (g, m) (by simp))
    rw [List.cons_append]
    unfold cleanLoop
    rw [e]
    dsimp only
    refine ⟨?_, h3⟩
    rw [h2]
    cases confirm <;> rfl

example : cleanLoop true [(c!"a.txt", 2048), (c!"b.txt", 1024 ^ 4), (c!"c.txt", 1)] = ([c!"a.txt  (2KB)"], [c!"a.txt"], some .type) := by decide +kernel

end Verif.Config
