import Verif.Model.Git
/-!
Model of /repo/libff/builtin/media.py and /repo/plugins/pacman.py. What pymediainfo finds in a file and what pacman prints are parameters.
-/
namespace FF

/-- A track of pymediainfo, as far as it is used; `kind` is the lower-case `track_type`. Simplified: durations are whole milliseconds, tags are texts. -/
structure Track where
  kind : Str
  performer : Option Str
  album : Option Str
  title : Option Str
  genre : Option Str
  recordedDate : Option Str
  width : Option Nat
  height : Option Nat
  format : Option Str
  duration : Option Int
deriving DecidableEq, Repr

/-- The dictionary `tracks` of media.py:62-76. -/
structure Tracks where
  audio : Option Track
  video : Option Track
  image : Option Track
  general : List Track
deriving DecidableEq, Repr

def kindAudio : Str := ['a', 'u', 'd', 'i', 'o']
def kindVideo : Str := ['v', 'i', 'd', 'e', 'o']
def kindImage : Str := ['i', 'm', 'a', 'g', 'e']
def kindGeneral : Str := ['g', 'e', 'n', 'e', 'r', 'a', 'l']

/-- media.py:66-73: the loop over the tracks. -/
def addTrack (t : Tracks) (track : Track) : Tracks :=
  if track.kind = kindAudio ∧ t.audio = none then { t with audio := some track }
  else if track.kind = kindVideo ∧ t.video = none then { t with video := some track }
  else if track.kind = kindImage ∧ t.image = none then { t with image := some track }
  else if track.kind = kindGeneral then { t with general := t.general ++ [track] }
  else t

/-- media.py:62-76 `prepare_tracks` for a file that can be parsed. -/
def prepareTracks (tracks : List Track) : Tracks := tracks.foldl addTrack ⟨none, none, none, []⟩

/-- The attributes of the plugin `medium`; `none` if there is no value. -/
structure MediumData where
  artist : Option Str
  album : Option Str
  title : Option Str
  genre : Option Str
  date : Option Str
  format : Option Str
  width : Option Nat
  height : Option Nat
  duration : Option Int
deriving DecidableEq, Repr

/-- media.py:93-98: one of the tags; a value that is empty is skipped, a later one replaces an earlier one. -/
def mediumTag (attr : Track → Option Str) (general : List Track) : Option Str :=
  general.foldl (fun cached track => match attr track with
    | none => cached
    | some v => if v = [] then cached else some v) none

/-- media.py:102-112: width and height. -/
def mediumSize (video image : Option Track) : Option Nat × Option Nat :=
  match video with
  | some t => if t.height.isSome && t.width.isSome then (t.width, t.height) else (none, none)
  | none => match image with
    | some t => if t.height.isSome && t.width.isSome then (t.width, t.height) else (none, none)
    | none => (none, none)

/-- media.py:107-109: the format; `lower` is `str.lower`. -/
def mediumFormat (lower : Str → Str) (video image : Option Track) : Option Str :=
  match video with
  | some _ => none
  | none => match image with
    | some t => t.format.map lower
    | none => none

/-- media.py:115-123: the loop over the two tracks. `int(duration / 1000)` cuts off the fraction. -/
def mediumDuration (tracks : List (Option Track)) : Option Int :=
  tracks.foldl (fun cached track => match track with
    | none => cached
    | some t => match t.duration with
      | none => cached
      | some d => some (Int.tdiv d 1000)) none

/-- media.py:84-128 `cache` and `process`. -/
def mediumProcess (lower : Str → Str) (tracks : List Track) : MediumData :=
  let t := prepareTracks tracks
  { artist := mediumTag Track.performer t.general, album := mediumTag Track.album t.general, title := mediumTag Track.title t.general,
    genre := mediumTag Track.genre t.general, date := mediumTag Track.recordedDate t.general,
    format := mediumFormat lower t.video t.image, width := (mediumSize t.video t.image).1, height := (mediumSize t.video t.image).2,
    duration := mediumDuration [t.video, t.audio] }

/-- pacman.py:40-43: one line of the output of `pacman -Ql`; `none` is the ValueError. -/
def pacmanLine (line : Str) : Option (Str × Str) := (splitWord (strip line)).map (fun p => (p.1, rstripChar '/' p.2))

/-- pacman.py:35-45 `setup`: the pairs of a package and a path, in the order of the output. -/
def pacmanSetup (lines : List Str) : Option (List (Str × Str)) := lines.mapM pacmanLine

/-- The keys of the dictionary `pkglist` of pacman.py:45, in the order of their first appearance. -/
def pkgNames : List (Str × Str) → List Str
  | [] => []
  | p :: ps => p.1 :: (pkgNames ps).filter (· ≠ p.1)

/-- pacman.py:50-57 `process`: the attributes `installed` and `pkgname`; of several values for `pkgname` the last one counts. -/
def pacmanProcess (files : List (Str × Str)) (path : Str) : Bool × Option Str :=
  if path ∈ files.map Prod.snd then (true, ((pkgNames files).filter (fun n => (n, path) ∈ files)).getLast?) else (false, none)

end FF
