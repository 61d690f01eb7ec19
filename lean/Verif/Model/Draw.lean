import Verif.Model.Obstacle

/-!
# Drawing of obstacles

obstacles/ellipse.py:37-65, obstacles/polygon.py:20-31 and 37-49, obstacles/starshaped_polygon.py:162-175,
obstacles/starshaped_primitive_combination.py:157-180: `init_plot`, `update_plot`, `draw`.

An axes object is the list of its artists; a handle is the number of an artist, or None. Colours, and the creation of a new
figure for `ax=None`, are left out. The vertices of a ring are listed once; shapely's `exterior` and matplotlib's closed
`Polygon` repeat the first one.
-/

namespace Starworlds

open Real

/-- What matplotlib shows: `patches.Ellipse` with its centre, width, height and angle in degrees, `patches.Polygon`,
a `Line2D` with one marker, a `Text`. -/
inductive Artist where
  | ellipse (center : Pt ℝ) (width height angle : ℝ)
  | ring (xy : Shape)
  | marker (p : Pt ℝ)
  | text (p : Pt ℝ) (s : String)

/-- The artists of an axes object. -/
abbrev Canvas := List Artist

/-- An element of `line_handles`. -/
abbrev Handle := Option Nat

/-- The class of an obstacle, with `_a` of an ellipse. -/
inductive DrawKind where
  | ellipse (a : Pt ℝ)
  | polygon
  | star

/-- Class and `_name` of an obstacle. -/
structure DrawObj where
  kind : DrawKind
  name : String

/-- `line_handles += [a]; ax.add_patch(a)`, and in the same way `ax.plot` and `ax.text`. -/
def addArtist (a : Artist) (h : List Handle × Canvas) : List Handle × Canvas := (h.1 ++ [some h.2.length], h.2 ++ [a])

/-- `line_handles += [..] if b else [None]`. -/
def addIf (b : Bool) (a : Artist) (h : List Handle × Canvas) : List Handle × Canvas :=
  if b then addArtist a h else (h.1 ++ [none], h.2)

/-- `init_plot`: obstacles/ellipse.py:37-51, obstacles/polygon.py:20-33 (`np.random.rand(3, 2)` is `rnd`),
obstacles/starshaped_polygon.py:162-168. -/
def initPlot (rnd : Shape) (o : DrawObj) (xr : Pt ℝ) (showReference showName : Bool) (c : Canvas) : List Handle × Canvas :=
  match o.kind with
  | .ellipse a =>
    addIf showName (.text xr o.name) (addIf showReference (.marker xr)
      (addArtist (.ellipse (0, 0) (2 * a.1) (2 * a.2) 0) ([], c)))
  | .polygon => addIf showName (.text (0, 0) o.name) (addArtist (.ring rnd) ([], c))
  | .star =>
    addIf showReference (.marker (0, 0)) (addIf showName (.text (0, 0) o.name) (addArtist (.ring rnd) ([], c)))

/-- `line_handles[0].center = pos`. An artist of another kind does not occur at this position; this is AttributeError
here and below. -/
def Artist.setCenter (p : Pt ℝ) : Artist → Except PyErr Artist
  | .ellipse _ w h t => .ok (.ellipse p w h t)
  | _ => .error .attributeError

/-- `line_handles[0].angle = ..`. -/
def Artist.setAngle (t : ℝ) : Artist → Except PyErr Artist
  | .ellipse p w h _ => .ok (.ellipse p w h t)
  | _ => .error .attributeError

/-- `line_handles[0].set_xy(..)`. -/
def Artist.setXy (v : Shape) : Artist → Except PyErr Artist
  | .ring _ => .ok (.ring v)
  | _ => .error .attributeError

/-- `set_data(*p)`: two numbers in place of two sequences. matplotlib before 3.9 takes them (`scalarOk`), later
versions raise RuntimeError; the repository does not pin the version. -/
def Artist.setData (scalarOk : Bool) (p : Pt ℝ) : Artist → Except PyErr Artist
  | .marker _ => if scalarOk then .ok (.marker p) else .error .runtimeError
  | _ => .error .attributeError

/-- `set_position(p)`. -/
def Artist.setPosition (p : Pt ℝ) : Artist → Except PyErr Artist
  | .text _ s => .ok (.text p s)
  | _ => .error .attributeError

/-- A change of the artist of `line_handles[i]`; `opt` says whether it is inside of `if line_handles[i] is not None`. -/
def touch (opt : Bool) (hs : List Handle) (i : Nat) (f : Artist → Except PyErr Artist) (c : Canvas) :
    Except PyErr Unit × Canvas :=
  match hs[i]? with
  | none => (.error .indexError, c)
  | some none => (if opt then .ok () else .error .attributeError, c)
  | some (some k) =>
    match c[k]? with
    | none => (.error .attributeError, c)
    | some a =>
      match f a with
      | .error e => (.error e, c)
      | .ok b => (.ok (), c.set k b)

/-- One statement after another. -/
def andThen (r : Except PyErr Unit × Canvas) (g : Canvas → Except PyErr Unit × Canvas) : Except PyErr Unit × Canvas :=
  match r with
  | (.ok _, c) => g c
  | (.error e, c) => (.error e, c)

/-- `set_position(self.xr(frame))`. -/
noncomputable def toXr (s : ObState) (f : Frame) (a : Artist) : Except PyErr Artist :=
  match xrCall s f with
  | .ok p => a.setPosition p
  | .error e => .error e

/-- `set_data(*self.xr(frame))`. -/
noncomputable def dataXr (scalarOk : Bool) (s : ObState) (f : Frame) (a : Artist) : Except PyErr Artist :=
  match xrCall s f with
  | .ok p => a.setData scalarOk p
  | .error e => .error e

/-- obstacles/ellipse.py:53-60 `Ellipse.update_plot`. For a frame that is no member of the enumeration `np.rad2deg(None)`
raises TypeError; that the centre has been set to None before is left out. -/
noncomputable def ellipseUpdate (scalarOk : Bool) (s : ObState) (hs : List Handle) (f : Frame) (c : Canvas) :
    Except PyErr Unit × Canvas :=
  match obstaclePos s.mm f, obstacleRot s.mm f with
  | some pos, some rot =>
    andThen (andThen (andThen (touch false hs 0 (Artist.setCenter pos) c)
      (touch false hs 0 (Artist.setAngle (rot * 180 / π))))
      (touch true hs 1 (dataXr scalarOk s f)))
      (touch true hs 2 (toXr s f))
  | _, _ => (.error .typeError, c)

/-- obstacles/polygon.py:39-44 `Polygon.update_plot`, after `polygon(frame)` has returned `ring`. -/
noncomputable def polygonUpdate (s : ObState) (ring : Shape) (hs : List Handle) (f : Frame) (c : Canvas) :
    Except PyErr Unit × Canvas :=
  andThen (touch false hs 0 (Artist.setXy ring) c)
    (touch true hs 1 fun a => match obstaclePos s.mm f with
      | some p => a.setPosition p
      | none => .error .typeError)

/-- obstacles/starshaped_polygon.py:170-175 `StarshapedPolygon.update_plot`. -/
noncomputable def starUpdate (scalarOk : Bool) (s : ObState) (ring : Shape) (hs : List Handle) (f : Frame) (c : Canvas) :
    Except PyErr Unit × Canvas :=
  andThen (andThen (polygonUpdate s ring hs f c)
    (touch true hs 1 (toXr s f)))
    (touch true hs 2 (dataXr scalarOk s f))

/-- `update_plot` of the three classes; `polygon(frame)` fills the cache. -/
noncomputable def updatePlot (scalarOk : Bool) (o : DrawObj) (s : ObState) (hs : List Handle) (f : Frame) (c : Canvas) :
    Except PyErr Unit × ObState × Canvas :=
  match o.kind with
  | .ellipse _ => let r := ellipseUpdate scalarOk s hs f c; (r.1, s, r.2)
  | .polygon =>
    match polygonCall s f with
    | (.error e, s) => (.error e, s, c)
    | (.ok ring, s) => let r := polygonUpdate s ring hs f c; (r.1, s, r.2)
  | .star =>
    match polygonCall s f with
    | (.error e, s) => (.error e, s, c)
    | (.ok ring, s) => let r := starUpdate scalarOk s ring hs f c; (r.1, s, r.2)

/-- `draw`: obstacles/ellipse.py:62-65, obstacles/polygon.py:46-49. -/
noncomputable def drawCall (scalarOk : Bool) (rnd : Shape) (o : DrawObj) (s : ObState) (f : Frame) (showReference showName : Bool)
    (c : Canvas) : Except PyErr (List Handle) × ObState × Canvas :=
  let (hs, c) := initPlot rnd o s.xr showReference showName c
  let (r, s, c) := updatePlot scalarOk o s hs f c
  (match r with | .ok _ => .ok hs | .error e => .error e, s, c)

/-! ## Programs that draw -/

/-- The obstacles, the axes, and what the calls of `draw` have returned, with the number of the obstacle and the two
options. -/
structure Scene where
  obs : Nat → ObState
  canvas : Canvas
  plots : List (Nat × Bool × Bool × List Handle)

/-- What a program can do. -/
inductive SceneOp where
  | on (i : Nat) (op : ObOp)
  | draw (i : Nat) (f : Frame) (rnd : Shape) (showReference showName : Bool)
  | update (k : Nat) (f : Frame)

/-- One call; an exception is caught. `update k` is `update_plot` with the handles that call number `k` of `draw` has
returned. -/
noncomputable def sceneStep (scalarOk : Bool) (os : Nat → DrawObj) (src : Nat → KernelSrc) (nr : Bool) (w : Scene) :
    SceneOp → Scene
  | .on i op => { w with obs := Function.update w.obs i (stepOp (src i) nr (w.obs i) op) }
  | .draw i f rnd sr sn =>
    let r := drawCall scalarOk rnd (os i) (w.obs i) f sr sn w.canvas
    ⟨Function.update w.obs i r.2.1, r.2.2, match r.1 with
      | .ok hs => w.plots ++ [(i, sr, sn, hs)]
      | .error _ => w.plots⟩
  | .update k f =>
    match w.plots[k]? with
    | none => w
    | some (i, _, _, hs) =>
      let r := updatePlot scalarOk (os i) (w.obs i) hs f w.canvas
      ⟨Function.update w.obs i r.2.1, r.2.2, w.plots⟩

/-- A history. -/
noncomputable def sceneRun (scalarOk : Bool) (os : Nat → DrawObj) (src : Nat → KernelSrc) (nr : Bool) (w : Scene)
    (ops : List SceneOp) : Scene := ops.foldl (sceneStep scalarOk os src nr) w

/-! ## Combinations -/

/-- obstacles/starshaped_primitive_combination.py:157-172 `init_plot`: `parts` are the exteriors of the polygons that
`polygon()` consists of (utils/misc.py:17-39, without limits); there is no motion model. -/
def combInitPlot (parts : List Shape) (xr : Pt ℝ) (name : String) (showReference showName : Bool) (c : Canvas) :
    List Handle × Canvas :=
  addIf showName (.text xr name) (addIf showReference (.marker xr) (parts.foldl (fun h v => addArtist (.ring v) h) ([], c)))

/-- obstacles/starshaped_primitive_combination.py:174-175 `update_plot(self, line_handles)`; with a frame (`withFrame`)
Python raises TypeError, as there is one argument too many. -/
def combUpdatePlot (withFrame : Bool) (_ : List Handle) (c : Canvas) : Except PyErr Unit × Canvas :=
  (if withFrame then .error .typeError else .ok (), c)

end Starworlds
