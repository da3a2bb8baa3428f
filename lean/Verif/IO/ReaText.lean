import Verif.IO.Text

/-!
# Constant lines of `.rea` files

Copied from `writerea`, `/repo/src/pymech/neksuite/mesh.py`. The newline at the end of every line is left out here.
-/

namespace Pymech

/-- The parameters, mesh.py:220–337. -/
def reaParams : List Text := [
  "   1.00000     P001: DENSITY".toList,
  "  -1000.00     P002: VISCOSITY".toList,
  "   0.00000     P003: BETAG".toList,
  "   0.00000     P004: GTHETA".toList,
  "   0.00000     P005: PGRADX".toList,
  "   0.00000     P006: ".toList,
  "   1.00000     P007: RHOCP".toList,
  "   1.00000     P008: CONDUCT".toList,
  "   0.00000     P009: ".toList,
  "   0.00000     P010: FINTIME".toList,
  "   103         P011: NSTEPS".toList,
  "  -1.00000E-03 P012: DT".toList,
  "   0.00000     P013: IOCOMM".toList,
  "   0.00000     P014: IOTIME".toList,
  "   10          P015: IOSTEP".toList,
  "   0.00000     P016: PSSOLVER: 0=default".toList,
  "   1.00000     P017: ".toList,
  "   0.00000     P018: GRID <0 --> # cells on screen".toList,
  "   0.00000     P019: INTYPE".toList,
  "   10.0000     P020: NORDER".toList,
  "   1.00000E-09 P021: DIVERGENCE".toList,
  "   1.00000E-09 P022: HELMHOLTZ".toList,
  "   0.00000     P023: NPSCAL".toList,
  "   1.00000E-02 P024: TOLREL".toList,
  "   1.00000E-02 P025: TOLABS".toList,
  "   1.00000     P026: COURANT/NTAU".toList,
  "   3.00000     P027: TORDER".toList,
  "   0.00000     P028: TORDER: mesh velocity (0: p28=p27)".toList,
  "   0.00000     P029: = magnetic visc if > 0, = -1/Rm if < 0".toList,
  "   0.00000     P030: > 0 ==> properties set in uservp()".toList,
  "   0.00000     P031: NPERT: #perturbation modes".toList,
  "   0.00000     P032: #BCs in re2 file, if > 0".toList,
  "   0.00000     P033: ".toList,
  "   0.00000     P034: ".toList,
  "   0.00000     P035: ".toList,
  "   0.00000     P036: XMAGNET".toList,
  "   0.00000     P037: NGRIDS".toList,
  "   0.00000     P038: NORDER2".toList,
  "   0.00000     P039: NORDER3".toList,
  "   0.00000     P040: ".toList,
  "   0.00000     P041: 1-->multiplicattive SEMG".toList,
  "   0.00000     P042: 0=gmres/1=pcg".toList,
  "   0.00000     P043: 0=semg/1=schwarz".toList,
  "   0.00000     P044: 0=E-based/1=A-based prec.".toList,
  "   0.00000     P045: Relaxation factor for DTFS".toList,
  "   0.00000     P046: reserved".toList,
  "   0.00000     P047: vnu: mesh material prop.".toList,
  "   0.00000     P048: ".toList,
  "   0.00000     P049: ".toList,
  "   0.00000     P050: ".toList,
  "   0.00000     P051: ".toList,
  "   0.00000     P052: IOHIS".toList,
  "   0.00000     P053: ".toList,
  "   0.00000     P054: fixed flow rate dir: |p54|=1,2,3=x,y,z".toList,
  "   0.00000     P055: vol.flow rate (p54>0) or Ubar (p54<0)".toList,
  "   0.00000     P056: ".toList,
  "   0.00000     P057: ".toList,
  "   0.00000     P058: ".toList,
  "   0.00000     P059: !=0 --> full Jac. eval. for each el.".toList,
  "   0.00000     P060: !=0 --> init. velocity to small nonzero".toList,
  "   0.00000     P061: ".toList,
  "   0.00000     P062: >0 --> force byte_swap for output".toList,
  "   8.00000     P063: =8 --> force 8-byte output".toList,
  "   0.00000     P064: =1 --> perturbation restart".toList,
  "   1.00000     P065: #iofiles (eg, 0 or 64); <0 --> sep. dirs".toList,
  "   6.00000     P066: output : <0=ascii, else binary".toList,
  "   6.00000     P067: restart: <0=ascii, else binary".toList,
  "   0.00000     P068: iastep: freq for avg_all (0=iostep)".toList,
  "   0.00000     P069:       : freq of srf dump".toList,
  "   0.00000     P070: ".toList,
  "   0.00000     P071: ".toList,
  "   0.00000     P072: ".toList,
  "   0.00000     P073: ".toList,
  "   0.00000     P074: ".toList,
  "   0.00000     P075: ".toList,
  "   0.00000     P076: ".toList,
  "   0.00000     P077: ".toList,
  "   0.00000     P078: ".toList,
  "   0.00000     P079: ".toList,
  "   0.00000     P080: ".toList,
  "   0.00000     P081: ".toList,
  "   0.00000     P082: ".toList,
  "   0.00000     P083: ".toList,
  "   0.00000     P084: != 0 --> sets initial timestep if p12>0".toList,
  "   0.00000     P085: dt retio of p84 !=0, for timesteps>0".toList,
  "   0.00000     P086: reserved".toList,
  "   0.00000     P087: ".toList,
  "   0.00000     P088: ".toList,
  "   0.00000     P089: ".toList,
  "   0.00000     P090: ".toList,
  "   0.00000     P091: ".toList,
  "   0.00000     P092: ".toList,
  "   20.0000     P093: Number of previous pressure solns saved".toList,
  "   9.00000     P094: start projecting velocity after p94 step".toList,
  "   9.00000     P095: start projecting pressure after p95 step".toList,
  "   0.00000     P096: ".toList,
  "   0.00000     P097: ".toList,
  "   0.00000     P098: ".toList,
  "   3.00000     P099: dealiasing: <0--> off /3--> old /4-->new".toList,
  "   0.00000     P100: ".toList,
  "   0.00000     P101: Number of additional modes to filter".toList,
  "   0.00000     P102: Dump out divergence at each time step".toList,
  "   0.01000     P103: weight of stabilizing filter".toList,
  "   0.00000     P104: ".toList,
  "   0.00000     P105: ".toList,
  "   0.00000     P106: ".toList,
  "   0.00000     P107: !=0 --> add h2 array in hmholtz eqn".toList,
  "   0.00000     P108: ".toList,
  "   0.00000     P109: ".toList,
  "   0.00000     P110: ".toList,
  "   0.00000     P111: ".toList,
  "   0.00000     P112: ".toList,
  "   0.00000     P113: ".toList,
  "   0.00000     P114: ".toList,
  "   0.00000     P115: ".toList,
  "   0.00000     P116: ".toList,
  "   0.00000     P117: ".toList,
  "   0.00000     P118: ".toList]

/-- Passive scalar data, logical switches, scaling, mesh.py:338–367. -/
def reaSwitches : List Text := [
  "      4  Lines of passive scalar data follows2 CONDUCT, 2RHOCP".toList,
  "   1.00000        1.00000        1.00000        1.00000        1.00000".toList,
  "   1.00000        1.00000        1.00000        1.00000".toList,
  "   1.00000        1.00000        1.00000        1.00000        1.00000".toList,
  "   1.00000        1.00000        1.00000        1.00000".toList,
  "         13   LOGICAL SWITCHES FOLLOW".toList,
  " T      IFFLOW".toList,
  " F      IFHEAT".toList,
  " T      IFTRAN".toList,
  " T F F F F F F F F F F  IFNAV & IFADVC (convection in P.S. fields)".toList,
  " F F T T T T T T T T T T  IFTMSH (IF mesh for this field is T mesh)".toList,
  " F      IFAXIS".toList,
  " F      IFSTRS".toList,
  " F      IFSPLIT".toList,
  " F      IFMGRID".toList,
  " F      IFMODEL".toList,
  " F      IFKEPS".toList,
  " F      IFMVBD".toList,
  " F      IFCHAR".toList,
  "   2.00000       2.00000      -1.00000      -1.00000     XFAC,YFAC,XZERO,YZERO".toList]

/-- What follows the boundary conditions, mesh.py:560–592. -/
def reaTail : List Text := [
  "    0 PRESOLVE/RESTART OPTIONS  *****".toList,
  "    7         INITIAL CONDITIONS *****".toList,
  " C Default".toList,
  " C Default".toList,
  " C Default".toList,
  " C Default".toList,
  " C Default".toList,
  " C Default".toList,
  " C Default".toList,
  "  ***** DRIVE FORCE DATA ***** BODY FORCE, FLOW, Q".toList,
  "    4                 Lines of Drive force data follow".toList,
  " C".toList,
  " C".toList,
  " C".toList,
  " C".toList,
  " ***** Variable Property Data ***** Overrrides Parameter data.".toList,
  "    1 Lines follow.".toList,
  "    0 PACKETS OF DATA FOLLOW".toList,
  " ***** HISTORY AND INTEGRAL DATA *****".toList,
  "    0   POINTS.  Hcode, I,J,H,IEL".toList,
  " ***** OUTPUT FIELD SPECIFICATION *****".toList,
  "    6 SPECIFICATIONS FOLLOW".toList,
  "    F      COORDINATES".toList,
  "    T      VELOCITY".toList,
  "    T      PRESSURE".toList,
  "    F      TEMPERATURE".toList,
  "    F      TEMPERATURE GRADIENT".toList,
  "    0      PASSIVE SCALARS".toList,
  " ***** OBJECT SPECIFICATION *****".toList,
  "        0 Surface Objects".toList,
  "        0 Volume  Objects".toList,
  "        0 Edge    Objects".toList,
  "        0 Point   Objects".toList]

end Pymech
