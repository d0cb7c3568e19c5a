/-
The shipped networks, src/simulation/net_templates.py and src/simulation/net_templates_3ph.py, and the shipped settings,
conf/conf.py and conf/simulation.py.

Numbers are written as in the source and are exact here. Of a bus, the arguments are kept that `create_bus` uses: number, type, powers
and nominal voltage; the shares of constant impedance and current have their default zero. Of a line: ends, length, resistance,
reactance, status and type (default status 1).
-/
import Verif.Model.Simulate

namespace Verif
noncomputable section

/-- `bolognani56_bus`, net_templates.py:18-74 -/
def bolognani56Bus : List BusData := [
  ⟨1, 1, .sym 0.160 0.080, 4.16, 0, 0⟩,
  ⟨2, 1, .sym 0.020 0.010, 4.16, 0, 0⟩,
  ⟨3, 1, .sym 0.120 0.060, 4.16, 0, 0⟩,
  ⟨4, 1, .sym 0.100 0.050, 4.16, 0, 0⟩,
  ⟨5, 1, .sym 0.040 0.020, 4.16, 0, 0⟩,
  ⟨6, 1, .sym 0.040 0.020, 4.16, 0, 0⟩,
  ⟨7, 1, .sym 0.000 0.000, 4.16, 0, 0⟩,
  ⟨8, 1, .sym 0.020 0.010, 4.16, 0, 0⟩,
  ⟨9, 1, .sym 0.020 0.010, 4.16, 0, 0⟩,
  ⟨10, 1, .sym 0.040 0.020, 4.16, 0, 0⟩,
  ⟨11, 1, .sym 0.020 0.010, 4.16, 0, 0⟩,
  ⟨12, 1, .sym 0.040 0.020, 4.16, 0, 0⟩,
  ⟨13, 1, .sym 0.040 0.020, 4.16, 0, 0⟩,
  ⟨14, 1, .sym 0.075 0.035, 4.16, 0, 0⟩,
  ⟨15, 1, .sym 0.140 0.100, 4.16, 0, 0⟩,
  ⟨16, 1, .sym 0.075 0.035, 4.16, 0, 0⟩,
  ⟨17, 1, .sym 0.120 0.060, 4.16, 0, 0⟩,
  ⟨18, 1, .sym 0.120 0.060, 4.16, 0, 0⟩,
  ⟨19, 1, .sym 0.245 0.180, 4.16, 0, 0⟩,
  ⟨20, 1, .sym 0.040 0.020, 4.16, 0, 0⟩,
  ⟨21, 1, .sym 0.000 0.000, 4.16, 0, 0⟩,
  ⟨22, 1, .sym 0.040 0.020, 4.16, 0, 0⟩,
  ⟨23, 1, .sym 0.040 0.020, 4.16, 0, 0⟩,
  ⟨24, 1, .sym 0.060 0.030, 4.16, 0, 0⟩,
  ⟨25, 1, .sym 0.040 0.020, 4.16, 0, 0⟩,
  ⟨26, 1, .sym 0.020 0.010, 4.16, 0, 0⟩,
  ⟨27, 1, .sym 0.020 0.010, 4.16, 0, 0⟩,
  ⟨28, 1, .sym 0.080 0.040, 4.16, 0, 0⟩,
  ⟨29, 1, .sym 0.040 0.020, 4.16, 0, 0⟩,
  ⟨30, 1, .sym 0.040 0.020, 4.16, 0, 0⟩,
  ⟨31, 1, .sym 0.040 0.020, 4.16, 0, 0⟩,
  ⟨32, 1, .sym 0.040 0.020, 4.16, 0, 0⟩,
  ⟨33, 1, .sym 0.000 0.000, 4.16, 0, 0⟩,
  ⟨34, 1, .sym 0.040 0.020, 4.16, 0, 0⟩,
  ⟨35, 1, .sym 0.040 0.020, 4.16, 0, 0⟩,
  ⟨36, 1, .sym 0.040 0.020, 4.16, 0, 0⟩,
  ⟨37, 1, .sym 0.100 0.050, 4.16, 0, 0⟩,
  ⟨38, 1, .sym 0.080 0.040, 4.16, 0, 0⟩,
  ⟨39, 1, .sym 0.140 0.070, 4.16, 0, 0⟩,
  ⟨40, 1, .sym 0.080 0.040, 4.16, 0, 0⟩,
  ⟨41, 1, .sym 0.040 0.020, 4.16, 0, 0⟩,
  ⟨42, 1, .sym 0.040 0.020, 4.16, 0, 0⟩,
  ⟨43, 1, .sym 0.080 0.040, 4.16, 0, 0⟩,
  ⟨44, 1, .sym 0.040 0.020, 4.16, 0, 0⟩,
  ⟨45, 1, .sym 0.040 0.020, 4.16, 0, 0⟩,
  ⟨46, 1, .sym 0.040 0.020, 4.16, 0, 0⟩,
  ⟨47, 1, .sym 0.120 0.060, 4.16, 0, 0⟩,
  ⟨48, 1, .sym 0.020 0.010, 4.16, 0, 0⟩,
  ⟨49, 1, .sym 0.060 0.030, 4.16, 0, 0⟩,
  ⟨50, 1, .sym 0.040 0.020, 4.16, 0, 0⟩,
  ⟨51, 1, .sym 0.105 0.075, 4.16, 0, 0⟩,
  ⟨52, 1, .sym 0.210 0.150, 4.16, 0, 0⟩,
  ⟨53, 1, .sym 0.140 0.095, 4.16, 0, 0⟩,
  ⟨54, 1, .sym 0.040 0.020, 4.16, 0, 0⟩,
  ⟨55, 1, .sym 0.020 0.010, 4.16, 0, 0⟩,
  ⟨56, 3, .sym 5.000 5.000, 4.16, 0, 0⟩]

/-- `bolognani56_net`, net_templates.py:76-131 -/
def bolognani56Net : List LineData := [
  ⟨56, 1, 400, 0.0013398623*17.3, 0.0027450827*17.3, 1, none⟩,
  ⟨1, 2, 300, 0.0010048967*17.3, 0.0020588120*17.3, 1, none⟩,
  ⟨2, 3, 200, 0.0006699312*17.3, 0.0013725413*17.3, 1, none⟩,
  ⟨3, 4, 300, 0.0010048967*17.3, 0.0020588120*17.3, 1, none⟩,
  ⟨4, 5, 400, 0.0013398623*17.3, 0.0027450827*17.3, 1, none⟩,
  ⟨5, 6, 200, 0.0006699312*17.3, 0.0013725413*17.3, 1, none⟩,
  ⟨6, 7, 125, 0.0004187070*17.3, 0.0008578383*17.3, 1, none⟩,
  ⟨7, 8, 275, 0.0009211553*17.3, 0.0018872444*17.3, 1, none⟩,
  ⟨8, 9, 275, 0.0009211553*17.3, 0.0018872444*17.3, 1, none⟩,
  ⟨7, 10, 350, 0.0011723795*17.3, 0.0024019474*17.3, 1, none⟩,
  ⟨10, 11, 750, 0.0025122418*17.3, 0.0051470300*17.3, 1, none⟩,
  ⟨11, 12, 250, 0.0027749546*17.3, 0.0013221274*17.3, 1, none⟩,
  ⟨12, 13, 175, 0.0019424682*17.3, 0.0009254892*17.3, 1, none⟩,
  ⟨13, 14, 350, 0.0038849364*17.3, 0.0018509784*17.3, 1, none⟩,
  ⟨14, 15, 425, 0.0047174228*17.3, 0.0022476166*17.3, 1, none⟩,
  ⟨15, 16, 325, 0.0036074409*17.3, 0.0017187657*17.3, 1, none⟩,
  ⟨11, 17, 350, 0.0011723795*17.3, 0.0024019474*17.3, 1, none⟩,
  ⟨17, 18, 275, 0.0009211553*17.3, 0.0018872444*17.3, 1, none⟩,
  ⟨18, 19, 200, 0.0006699312*17.3, 0.0013725413*17.3, 1, none⟩,
  ⟨19, 20, 400, 0.0013398623*17.3, 0.0027450827*17.3, 1, none⟩,
  ⟨20, 21, 100, 0.0003349656*17.3, 0.0006862707*17.3, 1, none⟩,
  ⟨21, 22, 225, 0.0007536726*17.3, 0.0015441090*17.3, 1, none⟩,
  ⟨21, 23, 475, 0.0015910865*17.3, 0.0032597857*17.3, 1, none⟩,
  ⟨23, 24, 475, 0.0015910865*17.3, 0.0032597857*17.3, 1, none⟩,
  ⟨24, 25, 250, 0.0008374139*17.3, 0.0017156767*17.3, 1, none⟩,
  ⟨25, 26, 250, 0.0008374139*17.3, 0.0017156767*17.3, 1, none⟩,
  ⟨19, 27, 700, 0.0023447590*17.3, 0.0048038947*17.3, 1, none⟩,
  ⟨27, 28, 450, 0.0015073451*17.3, 0.0030882180*17.3, 1, none⟩,
  ⟨28, 29, 275, 0.0009211553*17.3, 0.0018872444*17.3, 1, none⟩,
  ⟨29, 30, 225, 0.0007536726*17.3, 0.0015441090*17.3, 1, none⟩,
  ⟨30, 31, 225, 0.0007536726*17.3, 0.0015441090*17.3, 1, none⟩,
  ⟨31, 32, 300, 0.0010048967*17.3, 0.0020588120*17.3, 1, none⟩,
  ⟨17, 33, 250, 0.0008374139*17.3, 0.0017156767*17.3, 1, none⟩,
  ⟨33, 34, 275, 0.0009211553*17.3, 0.0018872444*17.3, 1, none⟩,
  ⟨34, 35, 550, 0.0018423107*17.3, 0.0037744887*17.3, 1, none⟩,
  ⟨35, 36, 300, 0.0010048967*17.3, 0.0020588120*17.3, 1, none⟩,
  ⟨33, 37, 250, 0.0008374139*17.3, 0.0017156767*17.3, 1, none⟩,
  ⟨37, 38, 275, 0.0009211553*17.3, 0.0018872444*17.3, 1, none⟩,
  ⟨38, 39, 325, 0.0010886381*17.3, 0.0022303797*17.3, 1, none⟩,
  ⟨4, 40, 825, 0.0027634660*17.3, 0.0056617331*17.3, 1, none⟩,
  ⟨40, 41, 300, 0.0010048967*17.3, 0.0020588120*17.3, 1, none⟩,
  ⟨41, 42, 250, 0.0008374139*17.3, 0.0017156767*17.3, 1, none⟩,
  ⟨42, 43, 275, 0.0009211553*17.3, 0.0018872444*17.3, 1, none⟩,
  ⟨43, 44, 200, 0.0006699312*17.3, 0.0013725413*17.3, 1, none⟩,
  ⟨44, 45, 300, 0.0010048967*17.3, 0.0020588120*17.3, 1, none⟩,
  ⟨45, 46, 350, 0.0011723795*17.3, 0.0024019474*17.3, 1, none⟩,
  ⟨40, 47, 375, 0.0012561209*17.3, 0.0025735150*17.3, 1, none⟩,
  ⟨47, 48, 250, 0.0008374139*17.3, 0.0017156767*17.3, 1, none⟩,
  ⟨48, 49, 250, 0.0008374139*17.3, 0.0017156767*17.3, 1, none⟩,
  ⟨49, 50, 200, 0.0006699312*17.3, 0.0013725413*17.3, 1, none⟩,
  ⟨50, 51, 250, 0.0008374139*17.3, 0.0017156767*17.3, 1, none⟩,
  ⟨51, 52, 150, 0.0005024484*17.3, 0.0010294060*17.3, 1, none⟩,
  ⟨51, 53, 250, 0.0008374139*17.3, 0.0017156767*17.3, 1, none⟩,
  ⟨53, 54, 250, 0.0008374139*17.3, 0.0017156767*17.3, 1, none⟩,
  ⟨54, 55, 250, 0.0008374139*17.3, 0.0017156767*17.3, 1, none⟩]

/-- `bolognani33_bus`, net_templates.py:138-171 -/
def bolognani33Bus : List BusData := [
  ⟨1, 1, .sym 0.160 0.080, 4.16, 0, 0⟩,
  ⟨2, 1, .sym 0.020 0.010, 4.16, 0, 0⟩,
  ⟨3, 1, .sym 0.120 0.060, 4.16, 0, 0⟩,
  ⟨4, 1, .sym 0.100 0.050, 4.16, 0, 0⟩,
  ⟨5, 1, .sym 0.040 0.020, 4.16, 0, 0⟩,
  ⟨6, 1, .sym 0.040 0.020, 4.16, 0, 0⟩,
  ⟨7, 1, .sym 0.000 0.000, 4.16, 0, 0⟩,
  ⟨8, 1, .sym 0.020 0.010, 4.16, 0, 0⟩,
  ⟨9, 1, .sym 0.020 0.010, 4.16, 0, 0⟩,
  ⟨10, 1, .sym 0.040 0.020, 4.16, 0, 0⟩,
  ⟨11, 1, .sym 0.020 0.010, 4.16, 0, 0⟩,
  ⟨12, 1, .sym 0.040 0.020, 4.16, 0, 0⟩,
  ⟨13, 1, .sym 0.040 0.020, 4.16, 0, 0⟩,
  ⟨14, 1, .sym 0.075 0.035, 4.16, 0, 0⟩,
  ⟨15, 1, .sym 0.140 0.100, 4.16, 0, 0⟩,
  ⟨16, 1, .sym 0.075 0.035, 4.16, 0, 0⟩,
  ⟨17, 1, .sym 0.120 0.060, 4.16, 0, 0⟩,
  ⟨18, 1, .sym 0.120 0.060, 4.16, 0, 0⟩,
  ⟨19, 1, .sym 0.245 0.180, 4.16, 0, 0⟩,
  ⟨20, 1, .sym 0.040 0.020, 4.16, 0, 0⟩,
  ⟨21, 1, .sym 0.000 0.000, 4.16, 0, 0⟩,
  ⟨22, 1, .sym 0.040 0.020, 4.16, 0, 0⟩,
  ⟨23, 1, .sym 0.040 0.020, 4.16, 0, 0⟩,
  ⟨24, 1, .sym 0.060 0.030, 4.16, 0, 0⟩,
  ⟨25, 1, .sym 0.040 0.020, 4.16, 0, 0⟩,
  ⟨26, 1, .sym 0.020 0.010, 4.16, 0, 0⟩,
  ⟨27, 1, .sym 0.020 0.010, 4.16, 0, 0⟩,
  ⟨28, 1, .sym 0.080 0.040, 4.16, 0, 0⟩,
  ⟨29, 1, .sym 0.040 0.020, 4.16, 0, 0⟩,
  ⟨30, 1, .sym 0.040 0.020, 4.16, 0, 0⟩,
  ⟨31, 1, .sym 0.040 0.020, 4.16, 0, 0⟩,
  ⟨32, 1, .sym 0.040 0.020, 4.16, 0, 0⟩,
  ⟨33, 3, .sym 5.000 5.000, 4.16, 0, 0⟩]

/-- `bolognani33_net`, net_templates.py:173-205 -/
def bolognani33Net : List LineData := [
  ⟨33, 1, 400, 0.0013398623*17.3, 0.0027450827*17.3, 1, none⟩,
  ⟨1, 2, 300, 0.0010048967*17.3, 0.0020588120*17.3, 1, none⟩,
  ⟨2, 3, 200, 0.0006699312*17.3, 0.0013725413*17.3, 1, none⟩,
  ⟨3, 4, 300, 0.0010048967*17.3, 0.0020588120*17.3, 1, none⟩,
  ⟨4, 5, 400, 0.0013398623*17.3, 0.0027450827*17.3, 1, none⟩,
  ⟨5, 6, 200, 0.0006699312*17.3, 0.0013725413*17.3, 1, none⟩,
  ⟨6, 7, 125, 0.0004187070*17.3, 0.0008578383*17.3, 1, none⟩,
  ⟨7, 8, 275, 0.0009211553*17.3, 0.0018872444*17.3, 1, none⟩,
  ⟨8, 9, 275, 0.0009211553*17.3, 0.0018872444*17.3, 1, none⟩,
  ⟨7, 10, 350, 0.0011723795*17.3, 0.0024019474*17.3, 1, none⟩,
  ⟨10, 11, 750, 0.0025122418*17.3, 0.0051470300*17.3, 1, none⟩,
  ⟨11, 12, 250, 0.0027749546*17.3, 0.0013221274*17.3, 1, none⟩,
  ⟨12, 13, 175, 0.0019424682*17.3, 0.0009254892*17.3, 1, none⟩,
  ⟨13, 14, 350, 0.0038849364*17.3, 0.0018509784*17.3, 1, none⟩,
  ⟨14, 15, 425, 0.0047174228*17.3, 0.0022476166*17.3, 1, none⟩,
  ⟨15, 16, 325, 0.0036074409*17.3, 0.0017187657*17.3, 1, none⟩,
  ⟨11, 17, 350, 0.0011723795*17.3, 0.0024019474*17.3, 1, none⟩,
  ⟨17, 18, 275, 0.0009211553*17.3, 0.0018872444*17.3, 1, none⟩,
  ⟨18, 19, 200, 0.0006699312*17.3, 0.0013725413*17.3, 1, none⟩,
  ⟨19, 20, 400, 0.0013398623*17.3, 0.0027450827*17.3, 1, none⟩,
  ⟨20, 21, 100, 0.0003349656*17.3, 0.0006862707*17.3, 1, none⟩,
  ⟨21, 22, 225, 0.0007536726*17.3, 0.0015441090*17.3, 1, none⟩,
  ⟨21, 23, 475, 0.0015910865*17.3, 0.0032597857*17.3, 1, none⟩,
  ⟨23, 24, 475, 0.0015910865*17.3, 0.0032597857*17.3, 1, none⟩,
  ⟨24, 25, 250, 0.0008374139*17.3, 0.0017156767*17.3, 1, none⟩,
  ⟨25, 26, 250, 0.0008374139*17.3, 0.0017156767*17.3, 1, none⟩,
  ⟨19, 27, 700, 0.0023447590*17.3, 0.0048038947*17.3, 1, none⟩,
  ⟨27, 28, 450, 0.0015073451*17.3, 0.0030882180*17.3, 1, none⟩,
  ⟨28, 29, 275, 0.0009211553*17.3, 0.0018872444*17.3, 1, none⟩,
  ⟨29, 30, 225, 0.0007536726*17.3, 0.0015441090*17.3, 1, none⟩,
  ⟨30, 31, 225, 0.0007536726*17.3, 0.0015441090*17.3, 1, none⟩,
  ⟨31, 32, 300, 0.0010048967*17.3, 0.0020588120*17.3, 1, none⟩]

/-- `bolognani21_bus`, net_templates.py:213-234 -/
def bolognani21Bus : List BusData := [
  ⟨1, 1, .sym 0.160 0.080, 4.16, 0, 0⟩,
  ⟨2, 1, .sym 0.020 0.010, 4.16, 0, 0⟩,
  ⟨3, 1, .sym 0.120 0.060, 4.16, 0, 0⟩,
  ⟨4, 1, .sym 0.100 0.050, 4.16, 0, 0⟩,
  ⟨5, 1, .sym 0.080 0.040, 4.16, 0, 0⟩,
  ⟨6, 1, .sym 0.040 0.020, 4.16, 0, 0⟩,
  ⟨7, 1, .sym 0.040 0.020, 4.16, 0, 0⟩,
  ⟨8, 1, .sym 0.080 0.040, 4.16, 0, 0⟩,
  ⟨9, 1, .sym 0.040 0.020, 4.16, 0, 0⟩,
  ⟨10, 1, .sym 0.040 0.020, 4.16, 0, 0⟩,
  ⟨11, 1, .sym 0.040 0.020, 4.16, 0, 0⟩,
  ⟨12, 1, .sym 0.120 0.060, 4.16, 0, 0⟩,
  ⟨13, 1, .sym 0.020 0.010, 4.16, 0, 0⟩,
  ⟨14, 1, .sym 0.060 0.030, 4.16, 0, 0⟩,
  ⟨15, 1, .sym 0.040 0.020, 4.16, 0, 0⟩,
  ⟨16, 1, .sym 0.105 0.075, 4.16, 0, 0⟩,
  ⟨17, 1, .sym 0.210 0.150, 4.16, 0, 0⟩,
  ⟨18, 1, .sym 0.140 0.095, 4.16, 0, 0⟩,
  ⟨19, 1, .sym 0.040 0.020, 4.16, 0, 0⟩,
  ⟨20, 1, .sym 0.020 0.010, 4.16, 0, 0⟩,
  ⟨21, 3, .sym 5.000 5.000, 4.16, 0, 0⟩]

/-- `bolognani21_net`, net_templates.py:236-256 -/
def bolognani21Net : List LineData := [
  ⟨21, 1, 400, 0.0013398623*17.3, 0.0027450827*17.3, 1, none⟩,
  ⟨1, 2, 300, 0.0010048967*17.3, 0.0020588120*17.3, 1, none⟩,
  ⟨2, 3, 200, 0.0006699312*17.3, 0.0013725413*17.3, 1, none⟩,
  ⟨3, 4, 300, 0.0010048967*17.3, 0.0020588120*17.3, 1, none⟩,
  ⟨4, 5, 825, 0.0027634660*17.3, 0.0056617331*17.3, 1, none⟩,
  ⟨5, 6, 300, 0.0010048967*17.3, 0.0020588120*17.3, 1, none⟩,
  ⟨6, 7, 250, 0.0008374139*17.3, 0.0017156767*17.3, 1, none⟩,
  ⟨7, 8, 275, 0.0009211553*17.3, 0.0018872444*17.3, 1, none⟩,
  ⟨8, 9, 200, 0.0006699312*17.3, 0.0013725413*17.3, 1, none⟩,
  ⟨9, 10, 300, 0.0010048967*17.3, 0.0020588120*17.3, 1, none⟩,
  ⟨10, 11, 350, 0.0011723795*17.3, 0.0024019474*17.3, 1, none⟩,
  ⟨5, 12, 375, 0.0012561209*17.3, 0.0025735150*17.3, 1, none⟩,
  ⟨12, 13, 250, 0.0008374139*17.3, 0.0017156767*17.3, 1, none⟩,
  ⟨13, 14, 250, 0.0008374139*17.3, 0.0017156767*17.3, 1, none⟩,
  ⟨14, 15, 200, 0.0006699312*17.3, 0.0013725413*17.3, 1, none⟩,
  ⟨15, 16, 250, 0.0008374139*17.3, 0.0017156767*17.3, 1, none⟩,
  ⟨16, 17, 150, 0.0005024484*17.3, 0.0010294060*17.3, 1, none⟩,
  ⟨16, 18, 250, 0.0008374139*17.3, 0.0017156767*17.3, 1, none⟩,
  ⟨18, 19, 250, 0.0008374139*17.3, 0.0017156767*17.3, 1, none⟩,
  ⟨20, 21, 250, 0.0008374139*17.3, 0.0017156767*17.3, 1, none⟩]

/-- `cigre_mv_feeder1_bus`, net_templates.py:259-269 -/
def cigreFeeder1Bus : List BusData := [
  ⟨1, 1, .sym 0.50170 0.208882, 20, 0, 0⟩,
  ⟨2, 1, .sym 0.43165 0.108182, 20, 0, 0⟩,
  ⟨3, 1, .sym 0.72750 0.182329, 20, 0, 0⟩,
  ⟨4, 1, .sym 0.54805 0.137354, 20, 0, 0⟩,
  ⟨5, 1, .sym 0.07650 0.047410, 20, 0, 0⟩,
  ⟨6, 1, .sym 0.58685 0.147078, 20, 0, 0⟩,
  ⟨7, 1, .sym 0.57375 0.355578, 20, 0, 0⟩,
  ⟨8, 1, .sym 0.54330 0.161264, 20, 0, 0⟩,
  ⟨9, 1, .sym 0.32980 0.082656, 20, 0, 0⟩,
  ⟨10, 3, .sym 10.00000 10.00000, 20, 0, 0⟩]

/-- `cigre_mv_feeder1_net`, net_templates.py:271-282 -/
def cigreFeeder1Net : List LineData := [
  ⟨10, 1, 4.42, 2.21442, 3.16472, 1, none⟩,
  ⟨1, 2, 0.61, 0.30561, 0.43676, 1, none⟩,
  ⟨2, 3, 0.56, 0.28056, 0.40096, 1, none⟩,
  ⟨3, 4, 1.54, 0.77154, 1.10264, 1, none⟩,
  ⟨4, 5, 0.24, 0.12024, 0.17184, 1, none⟩,
  ⟨5, 6, 1.67, 0.83667, 1.19572, 1, none⟩,
  ⟨6, 7, 0.32, 0.16032, 0.22912, 1, none⟩,
  ⟨7, 8, 0.77, 0.38577, 0.55132, 1, none⟩,
  ⟨8, 9, 0.33, 0.16533, 0.23628, 1, none⟩,
  ⟨1, 6, 1.30, 0.65130, 0.93080, 1, none⟩,
  ⟨9, 2, 0.49, 0.24549, 0.35084, 1, none⟩]

/-- `ieee_33_bus`, net_templates.py:285-318 -/
def ieee33Bus : List BusData := [
  ⟨1, 3, .sym 10 10, 12.66, 0, 0⟩,
  ⟨2, 1, .sym 0.100 0.060, 12.66, 0, 0⟩,
  ⟨3, 1, .sym 0.090 0.040, 12.66, 0, 0⟩,
  ⟨4, 1, .sym 0.120 0.080, 12.66, 0, 0⟩,
  ⟨5, 1, .sym 0.060 0.030, 12.66, 0, 0⟩,
  ⟨6, 1, .sym 0.060 0.020, 12.66, 0, 0⟩,
  ⟨7, 1, .sym 0.200 0.100, 12.66, 0, 0⟩,
  ⟨8, 1, .sym 0.200 0.100, 12.66, 0, 0⟩,
  ⟨9, 1, .sym 0.060 0.020, 12.66, 0, 0⟩,
  ⟨10, 1, .sym 0.060 0.020, 12.66, 0, 0⟩,
  ⟨11, 1, .sym 0.045 0.030, 12.66, 0, 0⟩,
  ⟨12, 1, .sym 0.060 0.035, 12.66, 0, 0⟩,
  ⟨13, 1, .sym 0.060 0.035, 12.66, 0, 0⟩,
  ⟨14, 1, .sym 0.120 0.080, 12.66, 0, 0⟩,
  ⟨15, 1, .sym 0.060 0.010, 12.66, 0, 0⟩,
  ⟨16, 1, .sym 0.060 0.020, 12.66, 0, 0⟩,
  ⟨17, 1, .sym 0.060 0.020, 12.66, 0, 0⟩,
  ⟨18, 1, .sym 0.090 0.040, 12.66, 0, 0⟩,
  ⟨19, 1, .sym 0.090 0.040, 12.66, 0, 0⟩,
  ⟨20, 1, .sym 0.090 0.040, 12.66, 0, 0⟩,
  ⟨21, 1, .sym 0.090 0.040, 12.66, 0, 0⟩,
  ⟨22, 1, .sym 0.090 0.040, 12.66, 0, 0⟩,
  ⟨23, 1, .sym 0.090 0.050, 12.66, 0, 0⟩,
  ⟨24, 1, .sym 0.420 0.200, 12.66, 0, 0⟩,
  ⟨25, 1, .sym 0.420 0.200, 12.66, 0, 0⟩,
  ⟨26, 1, .sym 0.060 0.025, 12.66, 0, 0⟩,
  ⟨27, 1, .sym 0.060 0.025, 12.66, 0, 0⟩,
  ⟨28, 1, .sym 0.060 0.020, 12.66, 0, 0⟩,
  ⟨29, 1, .sym 0.120 0.070, 12.66, 0, 0⟩,
  ⟨30, 1, .sym 0.200 0.600, 12.66, 0, 0⟩,
  ⟨31, 1, .sym 0.150 0.070, 12.66, 0, 0⟩,
  ⟨32, 1, .sym 0.210 0.100, 12.66, 0, 0⟩,
  ⟨33, 1, .sym 0.060 0.040, 12.66, 0, 0⟩]

/-- `ieee_33_net`, net_templates.py:321-359 -/
def ieee33Net : List LineData := [
  ⟨1, 2, 1.0, 0.0922, 0.0470, 1, none⟩,
  ⟨2, 3, 1.0, 0.4930, 0.2511, 1, none⟩,
  ⟨3, 4, 1.0, 0.3660, 0.1864, 1, none⟩,
  ⟨4, 5, 1.0, 0.3811, 0.1941, 1, none⟩,
  ⟨5, 6, 1.0, 0.8190, 0.7070, 1, none⟩,
  ⟨6, 7, 1.0, 0.1872, 0.6188, 1, none⟩,
  ⟨7, 8, 1.0, 0.7114, 0.2351, 1, none⟩,
  ⟨8, 9, 1.0, 1.0300, 0.7400, 1, none⟩,
  ⟨9, 10, 1.0, 1.0440, 0.7400, 1, none⟩,
  ⟨10, 11, 1.0, 0.1966, 0.0650, 1, none⟩,
  ⟨11, 12, 1.0, 0.3744, 0.1238, 1, none⟩,
  ⟨12, 13, 1.0, 1.4680, 1.1550, 1, none⟩,
  ⟨13, 14, 1.0, 0.5416, 0.7129, 1, none⟩,
  ⟨14, 15, 1.0, 0.5910, 0.5260, 1, none⟩,
  ⟨15, 16, 1.0, 0.7463, 0.5450, 1, none⟩,
  ⟨16, 17, 1.0, 1.2890, 1.7210, 1, none⟩,
  ⟨17, 18, 1.0, 0.7320, 0.5740, 1, none⟩,
  ⟨2, 19, 1.0, 0.1640, 0.1565, 1, none⟩,
  ⟨19, 20, 1.0, 1.5042, 1.3554, 1, none⟩,
  ⟨20, 21, 1.0, 0.4095, 0.4784, 1, none⟩,
  ⟨21, 22, 1.0, 0.7089, 0.9373, 1, none⟩,
  ⟨3, 23, 1.0, 0.4512, 0.3083, 1, none⟩,
  ⟨23, 24, 1.0, 0.8980, 0.7091, 1, none⟩,
  ⟨24, 25, 1.0, 0.8960, 0.7011, 1, none⟩,
  ⟨6, 26, 1.0, 0.2030, 0.1034, 1, none⟩,
  ⟨26, 27, 1.0, 0.2842, 0.1447, 1, none⟩,
  ⟨27, 28, 1.0, 1.0590, 0.9337, 1, none⟩,
  ⟨28, 29, 1.0, 0.8042, 0.7006, 1, none⟩,
  ⟨29, 30, 1.0, 0.5075, 0.2585, 1, none⟩,
  ⟨30, 31, 1.0, 0.9744, 0.9630, 1, none⟩,
  ⟨31, 32, 1.0, 0.3105, 0.3619, 1, none⟩,
  ⟨32, 33, 1.0, 0.3410, 0.5302, 1, none⟩,
  ⟨21, 8, 1.0, 2.0000, 2.0000, 0, none⟩,
  ⟨9, 15, 1.0, 2.0000, 2.0000, 0, none⟩,
  ⟨12, 22, 1.0, 2.0000, 2.0000, 0, none⟩,
  ⟨18, 33, 1.0, 0.5000, 0.5000, 0, none⟩,
  ⟨25, 29, 1.0, 0.5000, 0.5000, 0, none⟩]

/-- `cigre_mv_feeder3_bus`, net_templates_3ph.py:12-22 -/
def cigreFeeder3Bus : List BusData := [
  ⟨1, 1, .asym ![0.50170, 0.50170, 0.50170] ![0.208882, 0.208882, 0.208882], 20, 0, 0⟩,
  ⟨2, 1, .asym ![0.43165, 0.43165, 0.43165] ![0.108182, 0.108182, 0.108182], 20, 0, 0⟩,
  ⟨3, 1, .asym ![0.72750, 0.72750, 0.72750] ![0.182329, 0.182329, 0.182329], 20, 0, 0⟩,
  ⟨4, 1, .asym ![0.54805, 0.54805, 0.54805] ![0.137354, 0.137354, 0.137354], 20, 0, 0⟩,
  ⟨5, 1, .asym ![0.07650, 0.07650, 0.07650] ![0.047410, 0.047410, 0.047410], 20, 0, 0⟩,
  ⟨6, 1, .asym ![0.58685, 0.58685, 0.58685] ![0.147078, 0.147078, 0.147078], 20, 0, 0⟩,
  ⟨7, 1, .asym ![0.57375, 0.57375, 0.57375] ![0.355578, 0.355578, 0.355578], 20, 0, 0⟩,
  ⟨8, 1, .asym ![0.54330, 0.54330, 0.54330] ![0.161264, 0.161264, 0.161264], 20, 0, 0⟩,
  ⟨9, 1, .asym ![0.32980, 0.32980, 0.32980] ![0.082656, 0.082656, 0.082656], 20, 0, 0⟩,
  ⟨10, 3, .sym 5.00000 5.00000, 20, 0, 0⟩]

/-- `cigre_mv_feeder3_net`, net_templates_3ph.py:24-35 -/
def cigreFeeder3Net : List LineData := [
  ⟨10, 1, 4.42, 0, 0, 1, some "UG3CIGRE"⟩,
  ⟨1, 2, 0.61, 0, 0, 1, some "UG3CIGRE"⟩,
  ⟨2, 3, 0.56, 0, 0, 1, some "UG3CIGRE"⟩,
  ⟨3, 4, 1.54, 0, 0, 1, some "UG3CIGRE"⟩,
  ⟨4, 5, 0.24, 0, 0, 1, some "UG3CIGRE"⟩,
  ⟨5, 6, 1.67, 0, 0, 1, some "UG3CIGRE"⟩,
  ⟨6, 7, 0.32, 0, 0, 1, some "UG3CIGRE"⟩,
  ⟨7, 8, 0.77, 0, 0, 1, some "UG3CIGRE"⟩,
  ⟨8, 9, 0.33, 0, 0, 1, some "UG3CIGRE"⟩,
  ⟨1, 6, 1.30, 0, 0, 1, some "UG3CIGRE"⟩,
  ⟨9, 2, 0.49, 0, 0, 1, some "UG3CIGRE"⟩]

/-- `test_3phase_bus`, net_templates_3ph.py:37-42 -/
def test3PhaseBus : List BusData := [
  ⟨1, 1, .asym ![0.04, 0.02, 0.02] ![0.01, 0.02, 0.01], 4.16, 0, 0⟩,
  ⟨2, 1, .asym ![0.08, 0.08, 0.08] ![0.02, 0.02, 0.02], 4.16, 0, 0⟩,
  ⟨3, 1, .asym ![0.08, 0, 0] ![0.04, 0, 0], 4.16, 0, 0⟩,
  ⟨4, 1, .asym ![0, 0.12, 0] ![0, 0.08, 0], 4.16, 0, 0⟩,
  ⟨5, 3, .sym 10.00000 10.00000, 4.16, 0, 0⟩]

/-- `test_3phase_net`, net_templates_3ph.py:44-48 -/
def test3PhaseNet : List LineData := [
  ⟨5, 1, 0.4, 0, 0, 1, some "OG3"⟩,
  ⟨1, 2, 0.2, 0, 0, 1, some "OG3"⟩,
  ⟨2, 3, 0.2, 0, 0, 1, some "OG3"⟩,
  ⟨2, 4, 0.2, 0, 0, 1, some "OG3"⟩]

/-- `ieee123center_bus`, net_templates_3ph.py:52-110 -/
def ieee123CenterBus : List BusData := [
  ⟨1, 1, .asym ![0.04, 0.02, 0.1] ![0.02, 0.01, 0.05], 4.16, 0, 0⟩,
  ⟨2, 1, .asym ![0.02, 0, 0] ![0.01, 0, 0], 4.16, 0, 0⟩,
  ⟨3, 1, .asym ![0.1, 0.02, 0] ![0.05, 0.01, 0], 4.16, 0, 0⟩,
  ⟨4, 1, .asym ![0, 0, 0.1] ![0, 0, 0.05], 4.16, 0, 0⟩,
  ⟨5, 1, .asym ![0.04, 0, 0] ![0.02, 0, 0], 4.16, 0, 0⟩,
  ⟨6, 1, .asym ![0.04, 0, 0] ![0.02, 0, 0], 4.16, 0, 0⟩,
  ⟨7, 1, .asym ![0, 0, 0] ![0, 0, 0], 4.16, 0, 0⟩,
  ⟨8, 1, .asym ![0.02, 0, 0] ![0.01, 0, 0], 4.16, 0, 0⟩,
  ⟨9, 1, .asym ![0, 0.02, 0] ![0, 0.01, 0], 4.16, 0, 0⟩,
  ⟨10, 1, .asym ![0, 0.04, 0] ![0, 0.02, 0], 4.16, 0, 0⟩,
  ⟨11, 1, .asym ![0.02, 0, 0] ![0.01, 0, 0], 4.16, 0, 0⟩,
  ⟨12, 1, .asym ![0, 0, 0.04] ![0, 0, 0.02], 4.16, 0, 0⟩,
  ⟨13, 1, .asym ![0.04, 0, 0] ![0.02, 0, 0], 4.16, 0, 0⟩,
  ⟨14, 1, .asym ![0, 0.075, 0] ![0, 0.035, 0], 4.16, 0, 0⟩,
  ⟨15, 1, .asym ![0.035, 0.035, 0.07] ![0.025, 0.025, 0.05], 4.16, 0, 0⟩,
  ⟨16, 1, .asym ![0, 0, 0.075] ![0, 0, 0.035], 4.16, 0, 0⟩,
  ⟨17, 1, .asym ![0.12, 0, 0] ![0.06, 0, 0], 4.16, 0, 0⟩,
  ⟨18, 1, .asym ![0, 0, 0.12] ![0, 0, 0.06], 4.16, 0, 0⟩,
  ⟨19, 1, .asym ![0.105, 0.07, 0.07] ![0.08, 0.05, 0.05], 4.16, 0, 0⟩,
  ⟨20, 1, .asym ![0, 0.04, 0] ![0, 0.02, 0], 4.16, 0, 0⟩,
  ⟨21, 1, .asym ![0, 0, 0] ![0, 0, 0], 4.16, 0, 0⟩,
  ⟨22, 1, .asym ![0.04, 0, 0] ![0.02, 0, 0], 4.16, 0, 0⟩,
  ⟨23, 1, .asym ![0, 0.04, 0] ![0, 0.02, 0], 4.16, 0, 0⟩,
  ⟨24, 1, .asym ![0, 0, 0.06] ![0, 0, 0.03], 4.16, 0, 0⟩,
  ⟨25, 1, .asym ![0.04, 0, 0] ![0.02, 0, 0], 4.16, 0, 0⟩,
  ⟨26, 1, .asym ![0, 0, 0.02] ![0, 0, 0.01], 4.16, 0, 0⟩,
  ⟨27, 1, .asym ![0, 0.02, 0] ![0, 0.01, 0], 4.16, 0, 0⟩,
  ⟨28, 1, .asym ![0.04, 0.04, 0] ![0.02, 0.02, 0], 4.16, 0, 0⟩,
  ⟨29, 1, .asym ![0, 0.04, 0] ![0, 0.02, 0], 4.16, 0, 0⟩,
  ⟨30, 1, .asym ![0, 0, 0.04] ![0, 0, 0.02], 4.16, 0, 0⟩,
  ⟨31, 1, .asym ![0.04, 0, 0] ![0.02, 0, 0], 4.16, 0, 0⟩,
  ⟨32, 1, .asym ![0, 0.04, 0] ![0, 0.02, 0], 4.16, 0, 0⟩,
  ⟨33, 1, .asym ![0, 0, 0] ![0, 0, 0], 4.16, 0, 0⟩,
  ⟨34, 1, .asym ![0.04, 0, 0] ![0.02, 0, 0], 4.16, 0, 0⟩,
  ⟨35, 1, .asym ![0, 0.04, 0] ![0, 0.02, 0], 4.16, 0, 0⟩,
  ⟨36, 1, .asym ![0, 0, 0.04] ![0, 0, 0.02], 4.16, 0, 0⟩,
  ⟨37, 1, .asym ![0, 0, 0.1] ![0, 0, 0.05], 4.16, 0, 0⟩,
  ⟨38, 1, .asym ![0, 0.08, 0] ![0, 0.04, 0], 4.16, 0, 0⟩,
  ⟨39, 1, .asym ![0.14, 0, 0] ![0.07, 0, 0], 4.16, 0, 0⟩,
  ⟨40, 1, .asym ![0.08, 0, 0] ![0.04, 0, 0], 4.16, 0, 0⟩,
  ⟨41, 1, .asym ![0, 0.04, 0] ![0, 0.02, 0], 4.16, 0, 0⟩,
  ⟨42, 1, .asym ![0, 0, 0.04] ![0, 0, 0.02], 4.16, 0, 0⟩,
  ⟨43, 1, .asym ![0.04, 0, 0.04] ![0.02, 0, 0.02], 4.16, 0, 0⟩,
  ⟨44, 1, .asym ![0.04, 0, 0] ![0.02, 0, 0], 4.16, 0, 0⟩,
  ⟨45, 1, .asym ![0.04, 0, 0] ![0.02, 0, 0], 4.16, 0, 0⟩,
  ⟨46, 1, .asym ![0, 0, 0.04] ![0, 0, 0.02], 4.16, 0, 0⟩,
  ⟨47, 1, .asym ![0.08, 0.04, 0] ![0.04, 0.02, 0], 4.16, 0, 0⟩,
  ⟨48, 1, .asym ![0, 0, 0.02] ![0, 0, 0.01], 4.16, 0, 0⟩,
  ⟨49, 1, .asym ![0.02, 0.04, 0] ![0.01, 0.02, 0], 4.16, 0, 0⟩,
  ⟨50, 1, .asym ![0.04, 0, 0] ![0.02, 0, 0], 4.16, 0, 0⟩,
  ⟨51, 1, .asym ![0.035, 0.035, 0.035] ![0.025, 0.025, 0.025], 4.16, 0, 0⟩,
  ⟨52, 1, .asym ![0.07, 0.07, 0.07] ![0.05, 0.05, 0.05], 4.16, 0, 0⟩,
  ⟨53, 1, .asym ![0.035, 0.07, 0.035] ![0.025, 0.05, 0.02], 4.16, 0, 0⟩,
  ⟨54, 1, .asym ![0, 0, 0.04] ![0, 0, 0.02], 4.16, 0, 0⟩,
  ⟨55, 1, .asym ![0.02, 0, 0] ![0.01, 0, 0], 4.16, 0, 0⟩,
  ⟨56, 3, .sym 5.000 5.000, 4.16, 0, 0⟩]

/-- `ieee123center_net`, net_templates_3ph.py:112-167 -/
def ieee123CenterNet : List LineData := [
  ⟨56, 1, 400*0.3/1000, 0, 0, 1, some "OG3"⟩,
  ⟨1, 2, 300*0.3/1000, 0, 0, 1, some "OG3"⟩,
  ⟨2, 3, 200*0.3/1000, 0, 0, 1, some "OG3"⟩,
  ⟨3, 4, 300*0.3/1000, 0, 0, 1, some "OG3"⟩,
  ⟨4, 5, 400*0.3/1000, 0, 0, 1, some "OG3"⟩,
  ⟨5, 6, 200*0.3/1000, 0, 0, 1, some "OG3"⟩,
  ⟨6, 7, 125*0.3/1000, 0, 0, 1, some "OG3"⟩,
  ⟨7, 8, 275*0.3/1000, 0, 0, 1, some "OG3"⟩,
  ⟨8, 9, 275*0.3/1000, 0, 0, 1, some "OG3"⟩,
  ⟨7, 10, 350*0.3/1000, 0, 0, 1, some "OG3"⟩,
  ⟨10, 11, 750*0.3/1000, 0, 0, 1, some "OG3"⟩,
  ⟨11, 12, 250*0.3/1000, 0, 0, 1, some "UG3"⟩,
  ⟨12, 13, 175*0.3/1000, 0, 0, 1, some "UG3"⟩,
  ⟨13, 14, 350*0.3/1000, 0, 0, 1, some "UG3"⟩,
  ⟨14, 15, 425*0.3/1000, 0, 0, 1, some "UG3"⟩,
  ⟨15, 16, 325*0.3/1000, 0, 0, 1, some "UG3"⟩,
  ⟨11, 17, 350*0.3/1000, 0, 0, 1, some "OG3"⟩,
  ⟨17, 18, 275*0.3/1000, 0, 0, 1, some "OG3"⟩,
  ⟨18, 19, 200*0.3/1000, 0, 0, 1, some "OG3"⟩,
  ⟨19, 20, 400*0.3/1000, 0, 0, 1, some "OG3"⟩,
  ⟨20, 21, 100*0.3/1000, 0, 0, 1, some "OG3"⟩,
  ⟨21, 22, 225*0.3/1000, 0, 0, 1, some "OG3"⟩,
  ⟨21, 23, 475*0.3/1000, 0, 0, 1, some "OG3"⟩,
  ⟨23, 24, 475*0.3/1000, 0, 0, 1, some "OG3"⟩,
  ⟨24, 25, 250*0.3/1000, 0, 0, 1, some "OG3"⟩,
  ⟨25, 26, 250*0.3/1000, 0, 0, 1, some "OG3"⟩,
  ⟨19, 27, 700*0.3/1000, 0, 0, 1, some "OG3"⟩,
  ⟨27, 28, 450*0.3/1000, 0, 0, 1, some "OG3"⟩,
  ⟨28, 29, 275*0.3/1000, 0, 0, 1, some "OG3"⟩,
  ⟨29, 30, 225*0.3/1000, 0, 0, 1, some "OG3"⟩,
  ⟨30, 31, 225*0.3/1000, 0, 0, 1, some "OG3"⟩,
  ⟨31, 32, 300*0.3/1000, 0, 0, 1, some "OG3"⟩,
  ⟨17, 33, 250*0.3/1000, 0, 0, 1, some "OG3"⟩,
  ⟨33, 34, 275*0.3/1000, 0, 0, 1, some "OG3"⟩,
  ⟨34, 35, 550*0.3/1000, 0, 0, 1, some "OG3"⟩,
  ⟨35, 36, 300*0.3/1000, 0, 0, 1, some "OG3"⟩,
  ⟨33, 37, 250*0.3/1000, 0, 0, 1, some "OG3"⟩,
  ⟨37, 38, 275*0.3/1000, 0, 0, 1, some "OG3"⟩,
  ⟨38, 39, 325*0.3/1000, 0, 0, 1, some "OG3"⟩,
  ⟨4, 40, 825*0.3/1000, 0, 0, 1, some "OG3"⟩,
  ⟨40, 41, 300*0.3/1000, 0, 0, 1, some "OG3"⟩,
  ⟨41, 42, 250*0.3/1000, 0, 0, 1, some "OG3"⟩,
  ⟨42, 43, 275*0.3/1000, 0, 0, 1, some "OG3"⟩,
  ⟨43, 44, 200*0.3/1000, 0, 0, 1, some "OG3"⟩,
  ⟨44, 45, 300*0.3/1000, 0, 0, 1, some "OG3"⟩,
  ⟨45, 46, 350*0.3/1000, 0, 0, 1, some "OG3"⟩,
  ⟨40, 47, 375*0.3/1000, 0, 0, 1, some "OG3"⟩,
  ⟨47, 48, 250*0.3/1000, 0, 0, 1, some "OG3"⟩,
  ⟨48, 49, 250*0.3/1000, 0, 0, 1, some "OG3"⟩,
  ⟨49, 50, 200*0.3/1000, 0, 0, 1, some "OG3"⟩,
  ⟨50, 51, 250*0.3/1000, 0, 0, 1, some "OG3"⟩,
  ⟨51, 52, 150*0.3/1000, 0, 0, 1, some "OG3"⟩,
  ⟨51, 53, 250*0.3/1000, 0, 0, 1, some "OG3"⟩,
  ⟨53, 54, 250*0.3/1000, 0, 0, 1, some "OG3"⟩,
  ⟨54, 55, 250*0.3/1000, 0, 0, 1, some "OG3"⟩]

/-- `getattr(net_templates, name + "_bus")`, run.py:19 -/
def shippedBuses (name : String) : Option (List BusData) :=
  if name = "bolognani56" then some bolognani56Bus
  else if name = "bolognani33" then some bolognani33Bus
  else if name = "bolognani21" then some bolognani21Bus
  else if name = "cigre_mv_feeder1" then some cigreFeeder1Bus
  else if name = "ieee_33" then some ieee33Bus
  else none

/-- `getattr(net_templates, name + "_net")`, run.py:20 -/
def shippedLines (name : String) : Option (List LineData) :=
  if name = "bolognani56" then some bolognani56Net
  else if name = "bolognani33" then some bolognani33Net
  else if name = "bolognani21" then some bolognani21Net
  else if name = "cigre_mv_feeder1" then some cigreFeeder1Net
  else if name = "ieee_33" then some ieee33Net
  else none

/-- `getattr(net_templates_3ph, name + "_bus")`, run3ph.py:21 -/
def shippedBuses3 (name : String) : Option (List BusData) :=
  if name = "cigre_mv_feeder3" then some cigreFeeder3Bus
  else if name = "test_3phase" then some test3PhaseBus
  else if name = "ieee123center" then some ieee123CenterBus
  else none

/-- `getattr(net_templates_3ph, name + "_net")`, run3ph.py:22 -/
def shippedLines3 (name : String) : Option (List LineData) :=
  if name = "cigre_mv_feeder3" then some cigreFeeder3Net
  else if name = "test_3phase" then some test3PhaseNet
  else if name = "ieee123center" then some ieee123CenterNet
  else none

/-- names of `ieee123_types`, net_templates_3ph.py:192-208 -/
def shippedTypes : List String := ["OG3", "UG3", "OG1", "UG3CIGRE"]

/-- a run of simulate_network.py that uses the shipped networks -/
structure SimWorld.Shipped (w : SimWorld) : Prop where
  buses : w.buses = shippedBuses
  lines : w.lines = shippedLines
  buses3 : w.buses3 = shippedBuses3
  lines3 : w.lines3 = shippedLines3
  types3 : w.types3 = shippedTypes

/-- `list1` to `list5`, conf/simulation.py:5-9, 12 -/
def observedNodes : List Int :=
  [3, 16, 18, 28, 40, 47, 52] ++ [8, 9, 22, 36, 49, 46, 51] ++ [6, 12, 55, 26, 44, 50] ++ [1, 4, 10, 15, 17, 37] ++
    [19, 24, 32, 39, 43, 53]

/-- `list(set(range(1,56)) - set(np.array(observed_nodes)-1))`, conf/simulation.py:13, in increasing order -/
def shippedHidden : List Int :=
  ((List.range 55).map (fun k : Nat => (k : Int) + 1)).filter (fun k => k ∉ observedNodes.map (fun n => n - 1))

/-- conf/simulation.py:12-38 with `noise_level = 1`, conf/conf.py:9 -/
def shippedConf : SimConf where
  hidden := shippedHidden
  constantHidden := true
  constantness := 0.84
  weeks := [0]
  days := 7
  steps := 24 * 60 * 7
  fmeas := 50
  safety := 4
  vm := 1 / 10000
  cm := 1 / 10000
  vp := 0.01 * Real.pi / 180
  cp := 0.01 * Real.pi / 180

end
end Verif
