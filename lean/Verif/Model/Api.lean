import Verif.Model.ApiQuery

/-!
Histories of API calls. `Call` lists the functions of the API that can change the object (`/repo/src/gdx.hpp` 20-1745,
public members of TGXFileObj), `step` performs one, `run` a list of them. Functions that cannot change the object (queries
in `Model/ApiQuery`) are not calls of a history.
-/

namespace Gdx

inductive Call where
  | openWrite (nameEmpty : Bool) (ioErr : Int) (producer : Str) (compr : Int)
  | openRead (d : Disk) (readMode : Int)
  | openAppend (d : Disk) (producer : Str)
  | close
  | rawStart (name text : Str) (dim typ ui : Int)
  | rawStartBounds (name text : Str) (dim typ ui : Int) (bs : List (Int × Int))
  | writeRaw (key : List Int) (vals : List Dbl)
  | mapStart (name text : Str) (dim typ ui : Int)
  | writeMap (key : List Int) (vals : List Dbl)
  | strStart (name text : Str) (dim typ ui : Int)
  | writeStr (key : List Str) (vals : List Dbl)
  | writeDone
  | addAlias (id1 id2 : Str)
  | addSetText (txt : Str)
  | setTextNodeNr (nr node : Int)
  | setDomain (ids : List Str)
  | setDomainX (nr : Int) (ids : List Str)
  | addComment (nr : Int) (txt : Str)
  | uelRawStart
  | uelMapStart
  | uelStrStart
  | uelDone
  | uelRaw (s : Str)
  | uelMap (umap : Int) (s : Str)
  | uelStr (s : Str)
  | renameUEL (old new : Str)
  | readRawStart (nr : Int)
  | readRaw
  | readStrStart (nr : Int)
  | readStr
  | readMapStart (nr : Int)
  | readFilteredStart (nr : Int) (acts : List Int)
  | readMap (keyIn : List Int)
  | readDone
  | readRawFast (nr : Int)
  | readRawFastEx (nr : Int) (cont : List (RecOut Int) → Bool)
  | readRawFastFilt (nr : Int) (filt : List Str) (cont : List (RecOut Int) → Bool)
  | sliceStart (nr : Int)
  | slice (filt : List Str)
  | sliceUELS (keys : List Int)
  | domainElements (nr dimPos flt : Int) (cb : Bool)
  | indxMaxLength (nr : Int)
  | getDomain (nr : Int)
  | getDomainX (nr : Int)
  | errorRecord (nr : Int)
  | errorRecordX (nr : Int)
  | getLastError
  | filterExists (nr : Int)
  | filterStart (nr : Int)
  | filterAdd (um : Int)
  | filterDone
  | setSpecialValues (v : SVTab)
  | setReadSpecialValues (v : SVTab)
  | resetSpecialValues
  | acronymAdd (name text : Str) (idx : Int)
  | acronymSetInfo (n : Int) (name text : Str) (idx : Int)
  | acronymNextNr (nv : Int)
  | storeDomainSets (f : Bool)
  | allowBogusDomains (f : Bool)
  | mapAcronymsToNaN (f : Bool)
  | autoConvert (nv : Int)

/-- the new state out of a result -/
def stateOf {α : Type} (r : Res (Gx × α)) : Res Gx := do
  let x ← r
  pure x.1

/-- one call -/
def step (e : Env) (z : Cz) (g : Gx) : Call → Res Gx
  | .openWrite n i p c => stateOf (openWriteEx e g n i p c)
  | .openRead d m => stateOf (openReadXX z g d m)
  | .openAppend d p => stateOf (Gdx.openAppend z g d p)
  | .close => stateOf (gdxClose z g)
  | .rawStart n t d ty ui => stateOf (dataWriteRawStart g n t d ty ui)
  | .rawStartBounds n t d ty ui bs => stateOf (dataWriteRawStartKeyBounds g n t d ty ui bs)
  | .writeRaw k v => stateOf (dataWriteRaw g k v)
  | .mapStart n t d ty ui => stateOf (dataWriteMapStart g n t d ty ui)
  | .writeMap k v => stateOf (dataWriteMap g k v)
  | .strStart n t d ty ui => stateOf (dataWriteStrStart g n t d ty ui)
  | .writeStr k v => stateOf (dataWriteStr g k v)
  | .writeDone => stateOf (dataWriteDone z g)
  | .addAlias a b => stateOf (Gdx.addAlias g a b)
  | .addSetText t => .ok (Gdx.addSetText g t).1
  | .setTextNodeNr n d => .ok (Gdx.setTextNodeNr g n d).1
  | .setDomain ids => stateOf (symbolSetDomain g ids)
  | .setDomainX n ids => stateOf (symbolSetDomainX g n ids)
  | .addComment n t => stateOf (symbolAddComment g n t)
  | .uelRawStart => .ok (uelRegisterRawStart g).1
  | .uelMapStart => .ok (uelRegisterMapStart g).1
  | .uelStrStart => .ok (uelRegisterStrStart g).1
  | .uelDone => .ok (uelRegisterDone g).1
  | .uelRaw s => stateOf (uelRegisterRaw g s)
  | .uelMap m s => stateOf (uelRegisterMap g m s)
  | .uelStr s => stateOf (uelRegisterStr g s)
  | .renameUEL o n => stateOf (Gdx.renameUEL g o n)
  | .readRawStart n => stateOf (dataReadRawStart z g n)
  | .readRaw => stateOf (dataReadRaw g)
  | .readStrStart n => stateOf (dataReadStrStart z g n)
  | .readStr => stateOf (dataReadStr g)
  | .readMapStart n => stateOf (dataReadMapStart z g n)
  | .readFilteredStart n a => stateOf (dataReadFilteredStart z g n a)
  | .readMap k => stateOf (dataReadMap g k)
  | .readDone => stateOf (dataReadDone g)
  | .readRawFast n => stateOf (dataReadRawFast z g n)
  | .readRawFastEx n c => stateOf (dataReadRawFastEx z g n c)
  | .readRawFastFilt n f c => stateOf (dataReadRawFastFilt z g n f c)
  | .sliceStart n => stateOf (dataReadSliceStart z g n)
  | .slice f => stateOf (dataReadSlice z g f)
  | .sliceUELS k => stateOf (dataSliceUELS g k)
  | .domainElements n d f c => stateOf (getDomainElements z g n d f c)
  | .indxMaxLength n => stateOf (symbIndxMaxLength z g n)
  | .getDomain n => stateOf (symbolGetDomain g n)
  | .getDomainX n => stateOf (symbolGetDomainX g n)
  | .errorRecord n => .ok (dataErrorRecord g n).1
  | .errorRecordX n => .ok (dataErrorRecordX g n).1
  | .getLastError => .ok (Gdx.getLastError g).1
  | .filterExists n => stateOf (Gdx.filterExists g n)
  | .filterStart n => stateOf (filterRegisterStart g n)
  | .filterAdd u => stateOf (filterRegister g u)
  | .filterDone => stateOf (filterRegisterDone g)
  | .setSpecialValues v => .ok (setSpecialValuesA g v).1
  | .setReadSpecialValues v => .ok (Gdx.setReadSpecialValues g v)
  | .resetSpecialValues => .ok (Gdx.resetSpecialValues g)
  | .acronymAdd n t i => stateOf (Gdx.acronymAdd g n t i)
  | .acronymSetInfo k n t i => stateOf (Gdx.acronymSetInfo g k n t i)
  | .acronymNextNr v => .ok (Gdx.acronymNextNr g v).1
  | .storeDomainSets f => .ok { g with storeDom := f }
  | .allowBogusDomains f => .ok { g with allowBogus := f }
  | .mapAcronymsToNaN f => .ok { g with acrNaN := f }
  | .autoConvert v => .ok { g with autoConvert := v }

/-- a history -/
def run (e : Env) (z : Cz) (g : Gx) : List Call → Res Gx
  | [] => .ok g
  | c :: cs => do
    let g ← step e z g c
    run e z g cs

end Gdx
